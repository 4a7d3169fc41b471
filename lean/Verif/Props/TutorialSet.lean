/-
C150: the training set of the tutorials, with the volatility target computed on the trades, only grows when trades are appended.
-/
import Verif.Model.TutorialSet
import Verif.Props.TrainingSet
import Verif.Props.VolTarget

set_option linter.unusedSectionVars false

namespace FinML

variable {K : Type} [Field K] [LinearOrder K] [IsStrictOrderedRing K]

/-- The joined value before the first new trade. -/
theorem asofAt_append (log sqrt : K → K) (decay : Int → K) (floor : K) (w : Int) (hw : 0 < w) (isLog : Bool) (tr more : KitTrades K) (n m : Nat)
    (hn : tr.HasLength n) (hm : more.HasLength m) (hs : (tr.ts ++ more.ts).Pairwise (· ≤ ·)) :
    ∃ v v', volSeries log sqrt decay floor w isLog tr = .ok v ∧ volSeries log sqrt decay floor w isLog (tr.append more) = .ok v' ∧
      ∀ t, (∀ u ∈ more.ts, t < u) → asofAt (tr.append more).ts v' t = asofAt tr.ts v t := by
  obtain ⟨v, v', h1, h2, _⟩ := C148_append log sqrt decay floor w hw isLog tr more n m hn hm hs [] (by simp)
  refine ⟨v, v', h1, h2, fun t ht => ?_⟩
  obtain ⟨a, a', e1, e2, e3⟩ := C148_append log sqrt decay floor w hw isLog tr more n m hn hm hs [t] (by simpa using ht)
  rw [h1] at e1
  rw [h2] at e2
  obtain rfl := Except.ok.inj e1
  obtain rfl := Except.ok.inj e2
  simpa [mergeAsof] using e3

/-- The training set depends on the columns only through their values on the bars. -/
theorem trainingSet_cols (log log1p : K → K) (rndOf : K → K → Int) (inferTick : List K → Except String K) (sp sp' : TrainingSpec K)
    (tr : KitTrades K) (kind : KitKind K) (T : List (Int × Ohlcv K))
    (hT : (kitCall log log1p rndOf inferTick tr kind BuilderState.fresh .ohlcv).2 = .ok (.bars T))
    (h : sp' = { sp with cols := sp'.cols })
    (hc : (fun name => (sp.cols name).map (fun g => T.map g)) = (fun name => (sp'.cols name).map (fun g => T.map g))) :
    trainingSet log log1p rndOf inferTick sp tr kind = trainingSet log log1p rndOf inferTick sp' tr kind := by
  unfold trainingSet
  rw [hT]
  simp only
  rw [hc]
  have e1 : sp'.retain = sp.retain := by rw [h]
  have e2 : sp'.feats = sp.feats := by rw [h]
  have e3 : sp'.names = sp.names := by rw [h]
  have e4 : sp'.target = sp.target := by rw [h]
  have e5 : sp'.sideOf = sp.sideOf := by rw [h]
  have e6 : sp'.args = sp.args := by rw [h]
  rw [e1, e2, e3, e4, e5, e6]

/-- **C150 (appending trades only appends samples).** Tick, volume, dollar and CUSUM bars, features that look only backwards, the volatility of
the trades joined to the bars as target, triple-barrier labels: if the new trades are later than the old ones and every column, the target
included, has a value in the old bars, the training set of all trades begins with the training set of the old trades. -/
theorem C150_append (log log1p sqrt : K → K) (decay : Int → K) (floor : K) (w : Int) (hw : 0 < w) (isLog : Bool) (rndOf : K → K → Int)
    (inferTick : List K → Except String K) (sp : TrainingSpec K) (name : String)
    (tr more : KitTrades K) (n m : Nat) (h0 : 0 < n) (hn : tr.HasLength n) (hm : more.HasLength m)
    (kind kind' : KitKind K) (hk : kind.Extends tr more kind') (hs : (tr.ts ++ more.ts).Pairwise (· ≤ ·))
    (hlt : ∀ t ∈ more.ts, ∀ l ∈ tr.ts.getLast?, l < t) (hidx : sp.args.idx = none)
    (hf : ∀ (k : Nat), ∀ f ∈ sp.feats, f.Commutes (List.take k))
    (T : List (Int × Ohlcv K)) (hT : (kitCall log log1p rndOf inferTick tr kind BuilderState.fresh .ohlcv).2 = .ok (.bars T))
    (v : List (Option K)) (hv : volSeries log sqrt decay floor w isLog tr = .ok v)
    (out : ColFrame (List (Option K)))
    (hout : buildKit (fun c => if c = name then some (mergeAsof tr.ts v (T.map Prod.fst)) else (sp.cols c).map (fun g => T.map g))
      sp.retain sp.feats = .ok out)
    (hval : ∀ nm ∈ sp.names, ∃ i < T.length, ((out nm).getD []).getD i none ≠ none)
    (S : List (EventRow K × TbmRowOut K))
    (hS : tutorialSet log log1p sqrt decay floor w isLog rndOf inferTick sp name tr kind = .ok S) :
    ∃ more', tutorialSet log log1p sqrt decay floor w isLog rndOf inferTick sp name (tr.append more) kind' = .ok (S ++ more') := by
  obtain ⟨v1, v', h1, h2, hasof⟩ := asofAt_append log sqrt decay floor w hw isLog tr more n m hn hm hs
  rw [hv] at h1
  obtain rfl := Except.ok.inj h1
  unfold tutorialSet at hS ⊢
  rw [hv] at hS
  rw [h2]
  simp only at hS ⊢
  have hts1 : tr.ts.Pairwise (· ≤ ·) := (List.pairwise_append.mp hs).1
  obtain ⟨st1, _⟩ := stamps_at_trades log log1p rndOf inferTick tr more n m h0 hn hm kind kind' hk hts1 T hT
  have hT1 : ∀ row ∈ T, asofAt (tr.append more).ts v' row.1 = asofAt tr.ts v row.1 := by
    intro row hrow
    apply hasof
    intro u hu
    have hmem := st1 row.1 (List.mem_map_of_mem hrow)
    cases hq : tr.ts.getLast? with
    | none => rw [List.getLast?_eq_none_iff] at hq; rw [hq] at hmem; simp at hmem
    | some l =>
      have hl := hlt u hu l hq
      obtain ⟨i, hi, hi2⟩ := List.getElem_of_mem hmem
      have hne : tr.ts ≠ [] := by rintro h; rw [h] at hi; simp at hi
      rw [List.getLast?_eq_some_getLast hne, Option.some.injEq, List.getLast_eq_getElem] at hq
      have := sorted_get_le hts1 hi (by omega : tr.ts.length - 1 < tr.ts.length) (by omega)
      omega
  have hcols : (fun c => ((sp.withTarget name tr.ts v).cols c).map (fun g => T.map g)) =
      (fun c => ((sp.withTarget name (tr.append more).ts v').cols c).map (fun g => T.map g)) := by
    funext c
    simp only [TrainingSpec.withTarget]
    by_cases hc : c = name
    · simp only [hc, if_true, Option.map_some]
      congr 1
      exact List.map_congr_left (fun row hrow => (hT1 row hrow).symm)
    · simp only [hc, if_false]
  rw [trainingSet_cols log log1p rndOf inferTick (sp.withTarget name tr.ts v) (sp.withTarget name (tr.append more).ts v') tr kind T hT rfl hcols] at hS
  have hout2 : buildKit (fun c => ((sp.withTarget name (tr.append more).ts v').cols c).map (fun g => T.map g))
      (sp.withTarget name (tr.append more).ts v').retain (sp.withTarget name (tr.append more).ts v').feats = .ok out := by
    rw [← hcols, ← hout]
    congr 1
    funext c
    simp only [TrainingSpec.withTarget]
    by_cases hc : c = name
    · simp [hc, mergeAsof]
    · simp only [hc, if_false]
  exact C126_append log log1p rndOf inferTick (sp.withTarget name (tr.append more).ts v') tr more n m h0 hn hm kind kind' hk hs hlt hidx hf T hT out hout2 hval S hS

/-- Rows stamped after the last trade do not matter: two sets of columns that agree on the bars before `t0` give the same training set, if
the trades end at or before `t0` and every column has a value before `t0`. -/
theorem trainingSet_tail (log log1p : K → K) (rndOf : K → K → Int) (inferTick : List K → Except String K) (sp sp' : TrainingSpec K)
    (tr : KitTrades K) (kind : KitKind K) (T : List (Int × Ohlcv K))
    (hT : (kitCall log log1p rndOf inferTick tr kind BuilderState.fresh .ohlcv).2 = .ok (.bars T))
    (h : sp' = { sp with cols := sp'.cols }) (l t0 : Int) (hl : tr.ts.getLast? = some l) (hlt : l ≤ t0)
    (j : Nat) (hj : j ≤ T.length) (hge : ∀ k (hk : k < T.length), j ≤ k → t0 ≤ T[k].1)
    (hc : ∀ name, (sp.cols name).map (fun g => (T.take j).map g) = (sp'.cols name).map (fun g => (T.take j).map g))
    (hf : ∀ f ∈ sp.feats, f.Commutes (List.take j))
    (out : ColFrame (List (Option K)))
    (hout : buildKit (fun name => (sp.cols name).map (fun g => T.map g)) sp.retain sp.feats = .ok out)
    (hval : ∀ nm ∈ sp.names, ∃ i < j, ((out nm).getD []).getD i none ≠ none)
    (S : List (EventRow K × TbmRowOut K)) (hS : trainingSet log log1p rndOf inferTick sp tr kind = .ok S) :
    trainingSet log log1p rndOf inferTick sp' tr kind = .ok S ∧
    ∃ out', buildKit (fun name => (sp'.cols name).map (fun g => T.map g)) sp'.retain sp'.feats = .ok out' ∧
      ∀ nm, (out' nm).map (List.take j) = (out nm).map (List.take j) := by
  have e1 : sp'.retain = sp.retain := by rw [h]
  have e2 : sp'.feats = sp.feats := by rw [h]
  have e3 : sp'.names = sp.names := by rw [h]
  have e4 : sp'.target = sp.target := by rw [h]
  have e5 : sp'.sideOf = sp.sideOf := by rw [h]
  have e6 : sp'.args = sp.args := by rw [h]
  have cf : ∀ q : String → Option (Int × Ohlcv K → Option K),
      buildKit (fun name => (q name).map (fun g => (T.take j).map g)) sp.retain sp.feats =
        (buildKit (fun name => (q name).map (fun g => T.map g)) sp.retain sp.feats).map (fun q name => (q name).map (List.take j)) := by
    intro q
    rw [← C93_causal j _ sp.retain sp.feats hf]
    congr 1
    funext name
    cases q name with
    | none => rfl
    | some g => simp [List.map_take]
  have cf1 := cf sp.cols
  have cf2 := cf sp'.cols
  rw [show (fun name => (sp.cols name).map (fun g => (T.take j).map g)) = (fun name => (sp'.cols name).map (fun g => (T.take j).map g)) from
    funext hc, cf2, hout] at cf1
  cases hout' : buildKit (fun name => (sp'.cols name).map (fun g => T.map g)) sp.retain sp.feats with
  | error e => rw [hout'] at cf1; simp [Except.map] at cf1
  | ok out' =>
  rw [hout'] at cf1
  simp only [Except.map, Except.ok.injEq] at cf1
  refine ⟨?_, out', by rw [e1, e2]; exact hout', fun nm => congrFun cf1 nm⟩
  have hlenj : (T.take j).length = j := by rw [List.length_take]; omega
  have hsp : T.map Prod.fst = (T.take j).map Prod.fst ++ (T.drop j).map Prod.fst := by rw [← List.map_append, List.take_append_drop]
  obtain ⟨r, hr⟩ := featureRows_append sp.names sp.target sp.sideOf ((T.take j).map Prod.fst) ((T.drop j).map Prod.fst)
    (fun name => (out name).map (List.take j)) out (by rw [List.length_map, hlenj])
  obtain ⟨r', hr'⟩ := featureRows_append sp.names sp.target sp.sideOf ((T.take j).map Prod.fst) ((T.drop j).map Prod.fst)
    (fun name => (out name).map (List.take j)) out' (by rw [List.length_map, hlenj, cf1])
  rw [← hsp] at hr hr'
  have hXts := featureRows_ts sp.names sp.target sp.sideOf ((T.take j).map Prod.fst) (fun name => (out name).map (List.take j))
  have hXv : ∀ c, c < sp.names.length → firstValid c (featureRows sp.names sp.target sp.sideOf ((T.take j).map Prod.fst)
      (fun name => (out name).map (List.take j))) ≠ none := by
    intro c hc
    obtain ⟨i, hij, hv⟩ := hval sp.names[c] (List.getElem_mem hc)
    refine firstValid_featureRows _ _ _ _ _ c hc i (by rw [List.length_map, hlenj]; exact hij) ?_
    cases ho : out sp.names[c] with
    | none => rw [ho] at hv; simp at hv
    | some l =>
      rw [ho] at hv
      simp only [Option.map_some, Option.getD_some] at hv ⊢
      rw [getD_take_lt _ _ _ _ hij]; exact hv
  have tail : ∀ (o2 : ColFrame (List (Option K))) (r2 : List (EventRow K)),
      featureRows sp.names sp.target sp.sideOf (T.map Prod.fst) o2 =
        featureRows sp.names sp.target sp.sideOf ((T.take j).map Prod.fst) (fun name => (out name).map (List.take j)) ++ r2 →
      ∀ a ∈ r2, t0 ≤ a.ts := by
    intro o2 r2 h2 a ha
    have e := featureRows_ts sp.names sp.target sp.sideOf (T.map Prod.fst) o2
    rw [h2, List.map_append, hXts, hsp] at e
    have e2 := List.append_cancel_left e
    have : a.ts ∈ (T.drop j).map Prod.fst := by rw [← e2]; exact List.mem_map_of_mem ha
    obtain ⟨row, hrow, hrow2⟩ := List.mem_map.mp this
    obtain ⟨k, hk, hk2⟩ := List.getElem_of_mem hrow
    rw [List.getElem_drop] at hk2
    rw [← hrow2, ← hk2]
    exact hge _ (by rw [List.length_drop] at hk; omega) (by omega)
  have hrts := tail out r hr
  have hrts' := tail out' r' hr'
  generalize featureRows sp.names sp.target sp.sideOf ((T.take j).map Prod.fst) (fun name => (out name).map (List.take j)) = X at *
  obtain ⟨o, hnew⟩ : ∃ o, tbmNew { sp.args with rows := featureRows sp.names sp.target sp.sideOf (T.map Prod.fst) out, nCols := sp.names.length } =
      .ok o := by
    cases hq : tbmNew { sp.args with rows := featureRows sp.names sp.target sp.sideOf (T.map Prod.fst) out, nCols := sp.names.length } with
    | ok o => exact ⟨o, rfl⟩
    | error e =>
      unfold trainingSet at hS
      rw [hT] at hS
      simp only [hout, hq] at hS
      cases hS
  obtain ⟨b, t, x, hbt, hmr, hx, ho, hmk⟩ := tbmNew_inv sp.args sp.names.length _ o hnew
  rw [hr] at hx
  obtain ⟨p, hp⟩ := preprocess_pred sp.names.length (b.npMax t) sp.args.minRet X r x hXv hx
  obtain ⟨hx1, hx2⟩ := (hp r x).mp hx
  have hmin : 0 ≤ o.minRet := by rw [ho]; exact hmr
  obtain ⟨⟨hlen, hv, a, ha, hal⟩, hSe⟩ := (trainingSet_ok log log1p rndOf inferTick sp tr kind T hT out hout o hnew hmin l hl S).mp hS
  have horig : o.orig = x := by rw [ho]
  have hnil : ∀ r2 : List (EventRow K), (∀ a ∈ r2, t0 ≤ a.ts) → (r2.filter p).filter (fun q => decide (q.ts + o.vertical ≤ l)) = [] := by
    intro r2 h2
    rw [List.filter_eq_nil_iff]
    intro q hq
    have := h2 q (List.mem_of_mem_filter hq)
    simp only [decide_eq_true_eq]
    omega
  have haX : a ∈ X.filter p := by
    rw [horig, hx1, List.filter_append, List.mem_append] at ha
    rcases ha with ha | ha
    · exact ha
    · have := hrts a (List.mem_of_mem_filter ha)
      omega
  have hx' : preprocessEvents sp.names.length (b.npMax t) sp.args.minRet (featureRows sp.names sp.target sp.sideOf (T.map Prod.fst) out') =
      .ok ((X ++ r').filter p) := by
    rw [hr']
    refine (hp r' _).mpr ⟨rfl, fun hcon => ?_⟩
    rw [List.filter_append, List.append_eq_nil_iff] at hcon
    rw [hcon.1] at haX
    simp at haX
  have hnew' := hmk _ _ hx'
  have hnew2 : tbmNew { sp'.args with rows := featureRows sp'.names sp'.target sp'.sideOf (T.map Prod.fst) out', nCols := sp'.names.length } =
      .ok ⟨b, t, sp.args.minRet, sp.args.vertical, sp.args.minClose, sp.args.isMeta, sp.args.idx, (X ++ r').filter p, (X ++ r').filter p, none⟩ := by
    rw [e3, e4, e5, e6]; exact hnew'
  have hover : o.vertical = sp.args.vertical := by rw [ho]
  refine (trainingSet_ok log log1p rndOf inferTick sp' tr kind T hT out' (by rw [e1, e2]; exact hout') _ hnew2 hmr l hl S).mpr
    ⟨⟨hlen, by simp only; rw [← hover]; exact hv, a, ?_, by simp only; rw [← hover]; exact hal⟩, ?_⟩
  · simp only [List.filter_append, List.mem_append]; exact Or.inl haX
  · simp only
    rw [hSe, horig, hx1, ← hover, List.filter_append, List.filter_append, hnil r hrts, List.filter_append, List.filter_append, hnil r' hrts']
    simp only [List.append_nil]
    apply List.map_congr_left
    intro q _
    rw [ho]
    rfl

/-- **C150 (time bars).** For time bars the samples of the old trades, their targets included, are samples of the longer data in the same
places, and the label of a sample stays if its window ends before the new trades. -/
theorem C150_time (log log1p sqrt : K → K) (decay : Int → K) (floor : K) (w : Int) (hw : 0 < w) (isLog : Bool) (rndOf : K → K → Int)
    (inferTick : List K → Except String K) (sp : TrainingSpec K) (name : String)
    (tr more : KitTrades K) (n m : Nat) (h0 : 0 < n) (hn : tr.HasLength n) (hm : more.HasLength m) (I : Int) (hI : 0 < I)
    (t0 : Int) (ht0 : more.ts.head? = some t0) (hs : (tr.ts ++ more.ts).Pairwise (· ≤ ·)) (hidx : sp.args.idx = none)
    (hf : ∀ (k : Nat), ∀ f ∈ sp.feats, f.Commutes (List.take k))
    (T : List (Int × Ohlcv K)) (hT : (kitCall log log1p rndOf inferTick tr (.time I) BuilderState.fresh .ohlcv).2 = .ok (.bars T))
    (v : List (Option K)) (hv : volSeries log sqrt decay floor w isLog tr = .ok v)
    (out : ColFrame (List (Option K)))
    (hout : buildKit (fun c => if c = name then some (mergeAsof tr.ts v (T.map Prod.fst)) else (sp.cols c).map (fun g => T.map g))
      sp.retain sp.feats = .ok out)
    (hval : ∀ nm ∈ sp.names, ∃ (i : Nat) (row : Int × Ohlcv K), T[i]? = some row ∧ row.1 < t0 ∧ ((out nm).getD []).getD i none ≠ none)
    (S : List (EventRow K × TbmRowOut K))
    (hS : tutorialSet log log1p sqrt decay floor w isLog rndOf inferTick sp name tr (.time I) = .ok S) :
    ∃ S', tutorialSet log log1p sqrt decay floor w isLog rndOf inferTick sp name (tr.append more) (.time I) = .ok S' ∧
      S.map Prod.fst <+: S'.map Prod.fst ∧
      ∀ (k : Nat) (p : EventRow K × TbmRowOut K), S[k]? = some p →
        (∀ t ∈ more.ts, tr.ts.getD (searchLeft tr.ts p.1.ts) 0 + sp.args.vertical < t) → S'[k]? = some p := by
  obtain ⟨v1, v', h1, h2, hasof⟩ := asofAt_append log sqrt decay floor w hw isLog tr more n m hn hm hs
  rw [hv] at h1
  obtain rfl := Except.ok.inj h1
  unfold tutorialSet at hS ⊢
  rw [hv] at hS
  rw [h2]
  simp only at hS ⊢
  have hstrict := time_stamps_strict log log1p rndOf inferTick tr I hI T hT
  obtain ⟨j, hjT, hjlt, hjge⟩ := split_before (T.map Prod.fst) (hstrict.imp le_of_lt) t0
  rw [List.length_map] at hjT
  have hmore : ∀ u ∈ more.ts, t0 ≤ u := by
    intro u hu
    cases hq : more.ts with
    | nil => rw [hq] at hu; simp at hu
    | cons a q =>
      rw [hq] at hu ht0
      simp only [List.head?_cons, Option.some.injEq] at ht0
      subst ht0
      have h3 := (List.pairwise_append.mp hs).2.1
      rw [hq, List.pairwise_cons] at h3
      rcases List.mem_cons.mp hu with rfl | hu
      · exact le_rfl
      · exact h3.1 u hu
  obtain ⟨l, hl⟩ : ∃ l, tr.ts.getLast? = some l := by
    cases hq : tr.ts.getLast? with
    | some l => exact ⟨l, rfl⟩
    | none =>
      rw [List.getLast?_eq_none_iff] at hq
      have := hn.ts
      rw [hq] at this
      simp at this
      omega
  have hlt0 : l ≤ t0 := (List.pairwise_append.mp hs).2.2 l (List.mem_of_getLast? hl) t0 (List.mem_of_head? ht0)
  have hc : ∀ c, ((sp.withTarget name tr.ts v).cols c).map (fun g => (T.take j).map g) =
      ((sp.withTarget name (tr.append more).ts v').cols c).map (fun g => (T.take j).map g) := by
    intro c
    simp only [TrainingSpec.withTarget]
    by_cases hc : c = name
    · simp only [hc, if_true, Option.map_some]
      congr 1
      apply List.map_congr_left
      intro row hrow
      refine (hasof _ ?_).symm
      obtain ⟨k, hk, hk2⟩ := List.getElem_of_mem hrow
      rw [List.getElem_take] at hk2
      have hkj : k < j := by rw [List.length_take] at hk; omega
      have := hjlt k (by rw [List.length_map]; omega) hkj
      rw [List.getElem_map, hk2] at this
      intro u hu
      exact lt_of_lt_of_le this (hmore u hu)
    · simp only [hc, if_false]
  have hout1 : buildKit (fun c => ((sp.withTarget name tr.ts v).cols c).map (fun g => T.map g))
      (sp.withTarget name tr.ts v).retain (sp.withTarget name tr.ts v).feats = .ok out := by
    rw [← hout]
    congr 1
    funext c
    simp only [TrainingSpec.withTarget]
    by_cases hc : c = name
    · simp [hc, mergeAsof]
    · simp only [hc, if_false]
  have hij : ∀ (i : Nat) (row : Int × Ohlcv K), T[i]? = some row → row.1 < t0 → i < j := by
    intro i row hi hlt
    obtain ⟨hiT, hi2⟩ := List.getElem?_eq_some_iff.mp hi
    by_contra hcon
    have := hjge i (by simpa using hiT) (by omega)
    rw [List.getElem_map, hi2] at this
    omega
  obtain ⟨hS', out', hout', htake⟩ := trainingSet_tail log log1p rndOf inferTick (sp.withTarget name tr.ts v)
    (sp.withTarget name (tr.append more).ts v') tr (.time I) T hT rfl l t0 hl hlt0 j hjT
    (fun k hk h => by have := hjge k (by rw [List.length_map]; exact hk) h; rwa [List.getElem_map] at this) hc (hf j) out hout1
    (fun nm hnm => by
      obtain ⟨i, row, a, b, c⟩ := hval nm hnm
      exact ⟨i, hij i row a b, c⟩) S hS
  refine C126_time log log1p rndOf inferTick (sp.withTarget name (tr.append more).ts v') tr more n m h0 hn hm I hI t0 ht0 hs hidx hf T hT out' hout' ?_ S hS'
  intro nm hnm
  obtain ⟨i, row, a, b, c⟩ := hval nm hnm
  refine ⟨i, row, a, b, ?_⟩
  have hi := hij i row a b
  have e := htake nm
  cases ho : out nm with
  | none => rw [ho] at c; simp at c
  | some q =>
    rw [ho] at c e
    cases ho' : out' nm with
    | none => rw [ho'] at e; simp at e
    | some q' =>
      rw [ho'] at e
      simp only [Option.map_some, Option.some.injEq] at e
      simp only [Option.getD_some] at c ⊢
      rw [← getD_take_lt _ _ _ _ hi, e, getD_take_lt _ _ _ _ hi]
      exact c

/-- **C150.** A return window that is not positive is refused, whatever the data. -/
theorem C150_window (log log1p sqrt : K → K) (decay : Int → K) (floor : K) (w : Int) (hw : w ≤ 0) (isLog : Bool) (rndOf : K → K → Int)
    (inferTick : List K → Except String K) (sp : TrainingSpec K) (name : String) (tr : KitTrades K) (kind : KitKind K) :
    ∃ e, tutorialSet log log1p sqrt decay floor w isLog rndOf inferTick sp name tr kind = .error e := by
  refine ⟨"The return window must be greater than zero.", ?_⟩
  unfold tutorialSet volSeries laggedReturns
  rw [if_pos hw]

/-! ### Examples -/

/-- Close as feature and the joined target `sigma`, both retained. -/
def tutorialSpec (v : Int) : TrainingSpec ℚ :=
  { demoSpec v with names := ["close", "sigma"], target := 1, retain := ["sigma"] }

/-- Time, features with target, label and time of touch of the samples of the workflow. -/
def tutorialSamples (v : Int) (kind : KitKind ℚ) (tr : KitTrades ℚ) : Option (List (Int × List (Option ℚ) × Int × Option Int)) :=
  (tutorialSet id id id halfDecay (1 / 100) 2 false (fun _ _ => 0) (fun _ => .error "no tick size") (tutorialSpec v) "sigma" tr kind).toOption.map
    (·.map (fun p => (p.1.ts, p.1.cells, p.2.out.label, p.2.touchTime)))

/- Non-vacuity of `C150_append`: bars of two trades. -/
example :
    let tr : KitTrades ℚ := ⟨[0, 1, 2, 3, 4, 9], [1, 2, 4, 2, 5, 5], [1, 1, 1, 1, 1, 1], [1, 1, 1, 1, 1, 1]⟩
    let more : KitTrades ℚ := ⟨[10, 20], [9, 9], [1, 1], [1, 1]⟩
    tutorialSamples 3 (.tick 2) tr = some [(1, [some 2, some (1 / 100)], 1, some 2), (3, [some 2, some (45 / 14)], 1, some 4)] ∧
    tutorialSamples 3 (.tick 2) (tr.append more) =
      some [(1, [some 2, some (1 / 100)], 1, some 2), (3, [some 2, some (45 / 14)], 1, some 4),
        (9, [some 5, some (18779 / 30040)], 1, some 10)] := by
  exact ⟨by decide +kernel, by decide +kernel⟩

/- Non-vacuity of `C150_time`: five-second bars; the bar at 5 has no target yet and gives no sample. -/
example :
    let tr : KitTrades ℚ := ⟨[1, 10, 31], [2, 6, 5], [1, 1, 1], [1, 1, 1]⟩
    let more : KitTrades ℚ := ⟨[40], [9], [1], [1]⟩
    tutorialSamples 20 (.time 5) tr = some [(10, [some 6, some (1 / 100)], 0, none)] ∧
    tutorialSamples 20 (.time 5) (tr.append more) =
      some [(10, [some 6, some (1 / 100)], 0, none), (15, [some 6, some (1 / 100)], 1, some 40),
        (20, [some 6, some (1 / 100)], 1, some 40)] := by
  exact ⟨by decide +kernel, by decide +kernel⟩

end FinML

/-
C126: the training set built from trades, when trades are appended.
-/
import Verif.Model.TrainingSet
import Verif.Props.Append
import Verif.Props.SettledLabels

set_option linter.unusedSectionVars false

namespace FinML

variable {K : Type} [Field K] [LinearOrder K] [IsStrictOrderedRing K]

theorem map_fst_zip_prefix {α β : Type} (a : List α) (b : List β) : (a.zip b).map Prod.fst <+: a := by
  induction a generalizing b with
  | nil => simp
  | cons x a ih =>
    cases b with
    | nil => simp
    | cons y b => rw [List.zip_cons_cons, List.map_cons, List.cons_prefix_cons]; exact ⟨rfl, ih b⟩

/-- The rows of a longer frame begin with the rows of the shorter one. -/
theorem featureRows_append (names : List String) (target : Nat) (sideOf : List (Option K) → Int) (s s' : List Int)
    (out out' : ColFrame (List (Option K))) (h : out = fun nm => (out' nm).map (List.take s.length)) :
    ∃ r, featureRows names target sideOf (s ++ s') out' = featureRows names target sideOf s out ++ r := by
  suffices H : featureRows names target sideOf (s ++ s') out' = featureRows names target sideOf s out ++
      (featureRows names target sideOf (s ++ s') out').drop s.length from ⟨_, H⟩
  have H : (featureRows names target sideOf (s ++ s') out').take s.length = featureRows names target sideOf s out := by
    unfold featureRows
    rw [← List.map_take, List.take_range, List.length_append, min_eq_left (by omega)]
    apply List.map_congr_left
    intro i hi
    rw [List.mem_range] at hi
    have hc : names.map (fun nm => ((out' nm).getD []).getD i none) = names.map (fun nm => ((out nm).getD []).getD i none) := by
      apply List.map_congr_left
      intro nm _
      rw [h]
      show _ = (((out' nm).map (List.take s.length)).getD []).getD i none
      cases out' nm with
      | none => rfl
      | some l => simp only [Option.map_some, Option.getD_some]; rw [getD_take_lt _ _ _ _ hi]
    have hs : (s ++ s').getD i 0 = s.getD i 0 := by
      rw [List.getD_eq_getElem?_getD, List.getD_eq_getElem?_getD, List.getElem?_append_left hi]
    simp only [hc, hs]
  rw [← H, List.take_append_drop]

theorem featureRows_ts (names : List String) (target : Nat) (sideOf : List (Option K) → Int) (s : List Int)
    (out : ColFrame (List (Option K))) : (featureRows names target sideOf s out).map (·.ts) = s := by
  unfold featureRows
  rw [List.map_map]
  apply List.ext_getElem
  · simp
  · intro i h1 h2
    simp [List.getElem?_eq_getElem h2]

/-- A column with a value has a first valid row. -/
theorem firstValid_featureRows (names : List String) (target : Nat) (sideOf : List (Option K) → Int) (s : List Int)
    (out : ColFrame (List (Option K))) (c : Nat) (hc : c < names.length) (i : Nat) (hi : i < s.length)
    (hv : ((out names[c]).getD []).getD i none ≠ none) : firstValid c (featureRows names target sideOf s out) ≠ none := by
  have gen : ∀ rows : List (EventRow K), (∃ r ∈ rows, r.cells.getD c none ≠ none) → firstValid c rows ≠ none := by
    intro rows
    induction rows with
    | nil => rintro ⟨r, hr, _⟩; simp at hr
    | cons a rows ih =>
      rintro ⟨r, hr, hv⟩
      unfold firstValid
      split_ifs with ha
      · simp
      · apply ih
        rcases List.mem_cons.mp hr with rfl | hr
        · exact absurd (Option.isSome_iff_ne_none.mpr hv) ha
        · exact ⟨r, hr, hv⟩
  apply gen
  unfold featureRows
  refine ⟨_, List.mem_map.mpr ⟨i, List.mem_range.mpr hi, rfl⟩, ?_⟩
  simp only
  rw [List.getD_eq_getElem _ _ (by simpa using hc), List.getElem_map]
  exact hv

/-- The stamps of bars that close at trades are times of trades, in order. -/
theorem stamps_at_trades (log log1p : K → K) (rndOf : K → K → Int) (inferTick : List K → Except String K)
    (tr more : KitTrades K) (n m : Nat) (h0 : 0 < n) (hn : tr.HasLength n) (hm : more.HasLength m)
    (kind kind' : KitKind K) (hk : kind.Extends tr more kind') (hs : tr.ts.Pairwise (· ≤ ·)) (T : List (Int × Ohlcv K))
    (hT : (kitCall log log1p rndOf inferTick tr kind BuilderState.fresh .ohlcv).2 = .ok (.bars T)) :
    (∀ t ∈ T.map Prod.fst, t ∈ tr.ts) ∧ (T.map Prod.fst).Pairwise (· ≤ ·) := by
  rw [(kitCall_spec log log1p rndOf inferTick _ _ _ (builderCacheOk_fresh log _ _) _).1] at hT
  obtain ⟨c, c', hc, hc', q1, q2, q3, q4, q5, q6⟩ := compBarClose_prefix log tr more n m h0 hn hm kind kind' hk
  have hw : kind.WellFormed n ∧ kind.closesAtTrades := by
    cases kind <;> cases kind' <;> simp only [KitKind.Extends] at hk <;>
      try exact ⟨trivial, trivial⟩
    obtain ⟨_, _, q1, ⟨s, hs, hs'⟩, ⟨x, q2, q3⟩, _⟩ := hk
    exact ⟨⟨by rw [q1, hn.ts], s, hs, hs'⟩, trivial⟩
  obtain ⟨d, hd, _, _, g3⟩ := C74_closes log tr kind n h0 hn.ts hn.prices hn.amounts hw.1
  obtain rfl : c = d := by rw [hc] at hd; exact Except.ok.inj hd
  have at_ : ∀ k (hk : k < c.1.length), ∃ (i : Nat), c.2[k]? = some (i : Int) ∧ tr.ts[i]? = some c.1[k] := by
    intro k hk
    have hk2 : k < c.2.length := by omega
    have h5 := q5 c.2[k] (List.getElem_mem hk2)
    refine ⟨c.2[k].toNat, ?_, ?_⟩
    · rw [List.getElem?_eq_getElem hk2, Option.some.injEq]; omega
    · rw [← g3 hw.2 k _ (List.getElem?_eq_getElem hk2), List.getElem?_eq_getElem hk]
  have hsub : (T.map Prod.fst) <+: c.1.tail := by
    simp only [pureCall, hc] at hT
    cases hb : compBarOhlcv tr.prices tr.amounts c.2 with
    | error e => rw [hb] at hT; simp at hT
    | ok bars =>
      rw [hb] at hT
      simp only [Except.ok.injEq, KitOut.bars.injEq] at hT
      rw [← hT]
      exact map_fst_zip_prefix _ _
  have mem1 : ∀ t ∈ c.1, t ∈ tr.ts := by
    intro t ht
    obtain ⟨k, hk, rfl⟩ := List.getElem_of_mem ht
    obtain ⟨i, _, hi⟩ := at_ k hk
    exact List.mem_of_getElem? hi
  have sorted : c.1.Pairwise (· ≤ ·) := by
    rw [List.pairwise_iff_getElem]
    intro i j hi hj hij
    obtain ⟨a, ha, ha'⟩ := at_ i hi
    obtain ⟨b, hb, hb'⟩ := at_ j hj
    obtain ⟨a1, a2⟩ := List.getElem?_eq_some_iff.mp ha
    obtain ⟨b1, b2⟩ := List.getElem?_eq_some_iff.mp hb
    obtain ⟨a3, a4⟩ := List.getElem?_eq_some_iff.mp ha'
    obtain ⟨b3, b4⟩ := List.getElem?_eq_some_iff.mp hb'
    have hab : c.2[i] ≤ c.2[j] := List.pairwise_iff_getElem.mp q4 i j a1 b1 hij
    rw [a2, b2] at hab
    rw [← a4, ← b4]
    rcases Nat.lt_or_ge a b with h | h
    · exact List.pairwise_iff_getElem.mp hs a b a3 b3 h
    · have : a = b := by omega
      subst this; exact le_rfl
  constructor
  · intro t ht
    exact mem1 t (List.mem_of_mem_tail (hsub.subset ht))
  · exact (sorted.sublist (List.tail_sublist _)).sublist hsub.sublist

theorem preprocessEvents_sub (nCols : Nat) (m : Ext K) (minRet : K) (rows x : List (EventRow K))
    (h : preprocessEvents nCols m minRet rows = .ok x) : x.Sublist rows := by
  unfold preprocessEvents at h
  cases hs : startTime nCols rows with
  | none => rw [hs] at h; cases h
  | some s =>
    rw [hs] at h
    simp only at h
    split_ifs at h
    cases h
    exact (List.filter_sublist).trans List.filter_sublist

theorem tbmCompute_feats (log : K → K) (o : TbmObj K) (z : List (EventRow K)) (ts : List Int) (close : List K) :
    (tbmCompute log { o with feats := z } ts close).2 = (tbmCompute log o ts close).2 ∧
    (tbmCompute log { o with feats := z } ts close).1.rowsOut = (tbmCompute log o ts close).1.rowsOut := by
  have e : tbmIndex { o with feats := z } = tbmIndex o := rfl
  unfold tbmCompute
  rw [e]
  cases ts.getLast? with
  | none => exact ⟨rfl, rfl⟩
  | some l =>
    simp only
    exact ⟨trivial, trivial⟩

/-- What the construction of the label object does, as a function of the rows. -/
theorem tbmNew_inv (args : TbmArgs K) (nCols : Nat) (rows0 : List (EventRow K)) (o : TbmObj K)
    (hnew : tbmNew { args with rows := rows0, nCols := nCols } = .ok o) :
    ∃ (b t : Ext K) (x : List (EventRow K)), args.barriers = some [b, t] ∧ 0 ≤ args.minRet ∧
      preprocessEvents nCols (b.npMax t) args.minRet rows0 = .ok x ∧
      o = ⟨b, t, args.minRet, args.vertical, args.minClose, args.isMeta, args.idx, x, x, none⟩ ∧
      ∀ rows x', preprocessEvents nCols (b.npMax t) args.minRet rows = .ok x' →
        tbmNew { args with rows := rows, nCols := nCols } =
          .ok ⟨b, t, args.minRet, args.vertical, args.minClose, args.isMeta, args.idx, x', x', none⟩ := by
  unfold tbmNew at hnew ⊢
  simp only at hnew ⊢
  by_cases k1 : (!args.hasTarget) = true
  · rw [if_pos k1] at hnew; cases hnew
  by_cases k2 : (!args.datetimeIndex) = true
  · rw [if_neg k1, if_pos k2] at hnew; cases hnew
  rw [if_neg k1, if_neg k2] at hnew
  split at hnew
  · rename_i b t hbt
    by_cases k3 : args.minRet < 0
    · rw [if_pos k3] at hnew; cases hnew
    rw [if_neg k3] at hnew
    by_cases k4 : (args.isMeta && decide (args.sideInteger = none)) = true
    · rw [if_pos k4] at hnew; cases hnew
    rw [if_neg k4] at hnew
    by_cases k5 : (args.isMeta && decide (args.sideInteger = some false)) = true
    · rw [if_pos k5] at hnew; cases hnew
    rw [if_neg k5] at hnew
    split at hnew
    · cases hnew
    · rename_i x hx
      refine ⟨b, t, x, hbt, not_lt.mp k3, hx, (Except.ok.inj hnew).symm, ?_⟩
      intro rows x' hx'
      rw [if_neg k1, if_neg k2]
      rw [if_neg k3, if_neg k4, if_neg k5, hx']
  · cases hnew

/-- **C126 (appending trades only appends samples).** The training set built from the trades of a tick, volume, dollar or CUSUM bar
builder — OHLCV table, features that look only backwards, triple-barrier labels — is the beginning of the training set built from
more trades, if the trades are in order, the new ones are later than the old ones, and every column has a value in the old bars. -/
theorem C126_append (log log1p : K → K) (rndOf : K → K → Int) (inferTick : List K → Except String K) (sp : TrainingSpec K)
    (tr more : KitTrades K) (n m : Nat) (h0 : 0 < n) (hn : tr.HasLength n) (hm : more.HasLength m)
    (kind kind' : KitKind K) (hk : kind.Extends tr more kind') (hs : (tr.ts ++ more.ts).Pairwise (· ≤ ·))
    (hlt : ∀ t ∈ more.ts, ∀ l ∈ tr.ts.getLast?, l < t) (hidx : sp.args.idx = none)
    (hf : ∀ (k : Nat), ∀ f ∈ sp.feats, f.Commutes (List.take k))
    (T : List (Int × Ohlcv K)) (hT : (kitCall log log1p rndOf inferTick tr kind BuilderState.fresh .ohlcv).2 = .ok (.bars T))
    (out : ColFrame (List (Option K)))
    (hout : buildKit (fun name => (sp.cols name).map (fun g => T.map g)) sp.retain sp.feats = .ok out)
    (hval : ∀ nm ∈ sp.names, ∃ i < T.length, ((out nm).getD []).getD i none ≠ none)
    (S : List (EventRow K × TbmRowOut K))
    (hS : trainingSet log log1p rndOf inferTick sp tr kind = .ok S) :
    ∃ more', trainingSet log log1p rndOf inferTick sp (tr.append more) kind' = .ok (S ++ more') := by
  obtain ⟨ob, hT', hpre⟩ := C117_succeeds log log1p rndOf inferTick tr more n m h0 hn hm kind kind' hk .ohlcv (by simp) _ hT
  obtain ⟨T', rfl⟩ : ∃ T', ob = .bars T' := by
    cases ob <;> first | exact hpre.elim | exact ⟨_, rfl⟩
  have hfeat := C117_features log log1p rndOf inferTick tr more n m h0 hn hm kind kind' hk T T' hT hT' sp.cols sp.retain sp.feats
    (hf T.length)
  rw [hout] at hfeat
  cases hout' : buildKit (fun name => (sp.cols name).map (fun g => T'.map g)) sp.retain sp.feats with
  | error e => rw [hout'] at hfeat; simp [Except.map] at hfeat
  | ok out' =>
  rw [hout'] at hfeat
  simp only [Except.map, Except.ok.injEq] at hfeat
  obtain ⟨R, hR⟩ := hpre
  have hstamps : T'.map Prod.fst = T.map Prod.fst ++ R.map Prod.fst := by rw [← hR, List.map_append]
  obtain ⟨rr, hrr⟩ := featureRows_append sp.names sp.target sp.sideOf (T.map Prod.fst) (R.map Prod.fst) out out'
    (by rw [List.length_map]; exact hfeat)
  rw [← hstamps] at hrr
  -- the first run
  unfold trainingSet at hS ⊢
  rw [hT] at hS
  rw [hT']
  simp only [hout] at hS
  simp only [hout']
  have hts1 : tr.ts.Pairwise (· ≤ ·) := (List.pairwise_append.mp hs).1
  obtain ⟨st1, st2⟩ := stamps_at_trades log log1p rndOf inferTick tr more n m h0 hn hm kind kind' hk hts1 T hT
  cases hnew : tbmNew { sp.args with rows := featureRows sp.names sp.target sp.sideOf (T.map Prod.fst) out, nCols := sp.names.length } with
  | error e => rw [hnew] at hS; cases hS
  | ok o =>
  rw [hnew] at hS
  simp only at hS
  obtain ⟨b, t, x, hbt, hmr, hx, ho, hmk⟩ := tbmNew_inv sp.args sp.names.length _ o hnew
  obtain ⟨y, hy⟩ := C123_events sp.names.length (b.npMax t) sp.args.minRet _ rr x
    (fun c hc => by
      obtain ⟨i, hi, hv⟩ := hval sp.names[c] (List.getElem_mem hc)
      exact firstValid_featureRows _ _ _ _ _ c hc i (by rw [List.length_map]; exact hi) hv) hx
  rw [← hrr] at hy
  rw [hmk _ _ hy]
  simp only
  have horig : o.orig = x := by rw [ho]
  have hsubl := preprocessEvents_sub _ _ _ _ _ hx
  have hev : ∀ r ∈ o.orig, r.ts ∈ tr.ts := by
    intro r hr
    rw [horig] at hr
    apply st1
    rw [← featureRows_ts sp.names sp.target sp.sideOf (T.map Prod.fst) out]
    exact List.mem_map_of_mem (hsubl.subset hr)
  have hord : o.orig.Pairwise (fun a b => a.ts ≤ b.ts) := by
    rw [horig]
    refine List.Pairwise.sublist hsubl ?_
    rw [← featureRows_ts sp.names sp.target sp.sideOf (T.map Prod.fst) out, List.pairwise_map] at st2
    exact st2
  obtain ⟨l, hl⟩ : ∃ l, tr.ts.getLast? = some l := by
    cases hq : tr.ts.getLast? with
    | some l => exact ⟨l, rfl⟩
    | none =>
      rw [List.getLast?_eq_none_iff] at hq
      have := hn.ts
      rw [hq] at this
      simp at this
      omega
  have hmin : 0 ≤ o.minRet := by rw [ho]; exact hmr
  cases hcomp : tbmCompute log o tr.ts tr.prices with
  | mk o1 err =>
  rw [hcomp] at hS
  cases err with
  | some e => cases hS
  | none =>
  simp only [Except.ok.injEq] at hS
  have hok : (tbmCompute log o tr.ts tr.prices).2 = none := by rw [hcomp]
  obtain ⟨hok', rows, extra, hr1, hr2⟩ := C123_labels log o y tr.ts more.ts tr.prices more.prices hmin (by rw [ho]; exact hidx) hs l hl
    (fun t' ht' => hlt t' ht' l hl) (by rw [hm.ts, hm.prices]) hord (fun r hr _ => hev r hr) hok
  have hobj : (⟨b, t, sp.args.minRet, sp.args.vertical, sp.args.minClose, sp.args.isMeta, sp.args.idx, x ++ y, x ++ y, none⟩ : TbmObj K) =
      { ({ o with orig := o.orig ++ y } : TbmObj K) with feats := x ++ y } := by rw [ho]
  rw [hobj]
  obtain ⟨w1, w2⟩ := tbmCompute_feats log { o with orig := o.orig ++ y } (x ++ y) (tr.append more).ts (tr.append more).prices
  have hok2 : (tbmCompute log { ({ o with orig := o.orig ++ y } : TbmObj K) with feats := x ++ y } (tr.append more).ts
      (tr.append more).prices).2 = none := w1.trans hok'
  obtain ⟨l', hl', hll⟩ : ∃ l', (tr.append more).ts.getLast? = some l' ∧ l ≤ l' := by
    simp only [KitTrades.append]
    cases hq : more.ts.getLast? with
    | none =>
      rw [List.getLast?_eq_none_iff] at hq
      exact ⟨l, by rw [hq, List.append_nil, hl], le_rfl⟩
    | some q =>
      refine ⟨q, by rw [List.getLast?_append, hq]; rfl, (hlt q (List.mem_of_getLast? hq) l hl).le⟩
  have hfe := (C106_compute log o hmin tr.ts tr.prices).2 hok l hl
  have hfe' := (C106_compute log { ({ o with orig := o.orig ++ y } : TbmObj K) with feats := x ++ y } hmin (tr.append more).ts
    (tr.append more).prices).2 hok2 l' hl'
  have hfeats : o1.feats = o.orig.filter (fun r => decide (r.ts + o.vertical ≤ l)) := by
    have := congrArg TbmObj.feats hfe
    rw [hcomp] at this
    exact this
  have hfeats' : (tbmCompute log { ({ o with orig := o.orig ++ y } : TbmObj K) with feats := x ++ y } (tr.append more).ts
      (tr.append more).prices).1.feats = (o.orig ++ y).filter (fun r => decide (r.ts + o.vertical ≤ l')) := by
    have := congrArg TbmObj.feats hfe'
    exact this
  have hrows : o1.rowsOut = some rows := by
    have := hr1
    rw [hcomp] at this
    exact this
  have hrlen : rows.length = o1.feats.length := by
    have := congrArg TbmObj.rowsOut hfe
    rw [hcomp] at this
    simp only [hrows, Option.some.injEq] at this
    rw [this, List.length_map, hfeats]
  obtain ⟨z, hz⟩ := filter_upto_prefix o.orig hord o.vertical l l' hll
  cases hc2 : tbmCompute log { ({ o with orig := o.orig ++ y } : TbmObj K) with feats := x ++ y } (tr.append more).ts
      (tr.append more).prices with
  | mk o2 err2 =>
  rw [hc2] at hok2 hfeats' w2
  simp only at hok2 hfeats' w2
  subst hok2
  simp only
  have hro : o2.rowsOut = some (rows ++ extra) := by rw [w2]; exact hr2
  rw [hro, Option.getD_some, hfeats', List.filter_append, hz, List.append_assoc, ← hfeats,
    List.zip_append hrlen.symm, ← hS, hrows, Option.getD_some]
  exact ⟨_, rfl⟩

/-! ### Time bars -/

theorem arange_strict (a b s : Int) (hs : 0 < s) : (arange a b s).Pairwise (· < ·) := by
  rw [List.pairwise_iff_getElem]
  intro i j hi hj hij
  rw [arange_getElem, arange_getElem]
  have : (i : Int) * s < j * s := by
    apply mul_lt_mul_of_pos_right _ hs
    exact_mod_cast hij
  linarith

theorem time_stamps_strict (log log1p : K → K) (rndOf : K → K → Int) (inferTick : List K → Except String K)
    (tr : KitTrades K) (I : Int) (hI : 0 < I) (T : List (Int × Ohlcv K))
    (hT : (kitCall log log1p rndOf inferTick tr (.time I) BuilderState.fresh .ohlcv).2 = .ok (.bars T)) :
    (T.map Prod.fst).Pairwise (· < ·) := by
  rw [(kitCall_spec log log1p rndOf inferTick _ _ _ (builderCacheOk_fresh log _ _) _).1] at hT
  simp only [pureCall] at hT
  cases hc : compBarClose log tr (.time I) with
  | error e => rw [hc] at hT; simp at hT
  | ok c =>
    rw [hc] at hT
    simp only at hT
    have hc1 : c.1 = timeBarClock tr.ts I := by simp only [compBarClose] at hc; cases hc; rfl
    cases hb : compBarOhlcv tr.prices tr.amounts c.2 with
    | error e => rw [hb] at hT; simp at hT
    | ok bars =>
      rw [hb] at hT
      simp only [Except.ok.injEq, KitOut.bars.injEq] at hT
      rw [← hT]
      refine List.Pairwise.sublist (map_fst_zip_prefix _ _).sublist (List.Pairwise.sublist (List.tail_sublist _) ?_)
      rw [hc1]
      exact arange_strict _ _ _ hI

theorem split_before (s : List Int) (hs : s.Pairwise (· ≤ ·)) (t0 : Int) :
    ∃ j, j ≤ s.length ∧ (∀ k (hk : k < s.length), k < j → s[k] < t0) ∧ (∀ k (hk : k < s.length), j ≤ k → t0 ≤ s[k]) := by
  induction s with
  | nil => exact ⟨0, by simp⟩
  | cons a s ih =>
    rw [List.pairwise_cons] at hs
    obtain ⟨j, h1, h2, h3⟩ := ih hs.2
    by_cases ha : a < t0
    · refine ⟨j + 1, by simpa using h1, ?_, ?_⟩
      · intro k hk hkj
        cases k with
        | zero => simpa using ha
        | succ k => simpa using h2 k (by simpa using hk) (by omega)
      · intro k hk hkj
        cases k with
        | zero => omega
        | succ k => simpa using h3 k (by simpa using hk) (by omega)
    · refine ⟨0, by omega, by intros; omega, ?_⟩
      intro k hk _
      cases k with
      | zero => simpa using not_lt.mp ha
      | succ k =>
        have hk' : k < s.length := by simpa using hk
        have := hs.1 s[k] (List.getElem_mem hk')
        simp only [List.getElem_cons_succ]; omega

/-- If every column has a value among the first rows, the events kept from more rows are chosen row by row. -/
theorem preprocess_pred (nCols : Nat) (m : Ext K) (minRet : K) (X r0 x0 : List (EventRow K))
    (hc : ∀ c, c < nCols → firstValid c X ≠ none) (h0 : preprocessEvents nCols m minRet (X ++ r0) = .ok x0) :
    ∃ p : EventRow K → Bool, ∀ r x, preprocessEvents nCols m minRet (X ++ r) = .ok x ↔ x = (X ++ r).filter p ∧ x ≠ [] := by
  have hst : ∀ r, startTime nCols (X ++ r) = startTime nCols X := by
    intro r
    unfold startTime
    have : (List.range nCols).filterMap (fun c => firstValid c (X ++ r)) = (List.range nCols).filterMap (fun c => firstValid c X) := by
      apply List.filterMap_congr
      intro c h
      rw [List.mem_range] at h
      exact firstValid_append c X r (hc c h)
    rw [this]
  cases hs : startTime nCols X with
  | none =>
    unfold preprocessEvents at h0
    rw [hst, hs] at h0
    cases h0
  | some s =>
    refine ⟨fun r => decide (s ≤ r.ts) && targetOk m minRet r.target, fun r x => ?_⟩
    unfold preprocessEvents
    rw [hst, hs]
    simp only [List.filter_filter]
    have e : ∀ z : List (EventRow K), z.filter (fun a => targetOk m minRet a.target && decide (s ≤ a.ts)) =
        z.filter (fun a => decide (s ≤ a.ts) && targetOk m minRet a.target) := by
      intro z; congr 1; funext a; exact Bool.and_comm _ _
    rw [e]
    by_cases hne : (X ++ r).filter (fun a => decide (s ≤ a.ts) && targetOk m minRet a.target) = []
    · rw [hne]
      simp only [List.isEmpty_nil, if_true, reduceCtorEq, false_iff, not_and, not_not]
      exact fun h => h
    · rw [if_neg (by rwa [List.isEmpty_iff]), if_neg]
      · constructor
        · intro h; injection h with h; subst h; exact ⟨rfl, hne⟩
        · rintro ⟨rfl, _⟩; rfl
      · rw [Bool.not_eq_true, List.any_eq_false]
        intro a ha hn
        rw [List.mem_filter] at ha
        rw [Option.isNone_iff_eq_none] at hn
        rw [hn] at ha
        simp [targetOk] at ha

/-- A training set, given its bars, features and events. -/
theorem trainingSet_ok (log log1p : K → K) (rndOf : K → K → Int) (inferTick : List K → Except String K) (sp : TrainingSpec K)
    (tr : KitTrades K) (kind : KitKind K) (T : List (Int × Ohlcv K))
    (hT : (kitCall log log1p rndOf inferTick tr kind BuilderState.fresh .ohlcv).2 = .ok (.bars T))
    (out : ColFrame (List (Option K)))
    (hout : buildKit (fun name => (sp.cols name).map (fun g => T.map g)) sp.retain sp.feats = .ok out) (o : TbmObj K)
    (ho : tbmNew { sp.args with rows := featureRows sp.names sp.target sp.sideOf (T.map Prod.fst) out, nCols := sp.names.length } = .ok o)
    (hm : 0 ≤ o.minRet) (l : Int) (hl : tr.ts.getLast? = some l) (S : List (EventRow K × TbmRowOut K)) :
    trainingSet log log1p rndOf inferTick sp tr kind = .ok S ↔
      (tr.ts.length = tr.prices.length ∧ 0 < o.vertical ∧ ∃ r ∈ o.orig, r.ts + o.vertical ≤ l) ∧
      S = (o.orig.filter (fun r => decide (r.ts + o.vertical ≤ l))).map (fun r => (r, tbmRow log o tr.ts tr.prices r)) := by
  unfold trainingSet
  rw [hT]
  simp only [hout, ho]
  obtain ⟨h1, h2⟩ := C106_compute log o hm tr.ts tr.prices
  cases hc : tbmCompute log o tr.ts tr.prices with
  | mk o1 err =>
  rw [hc] at h1 h2
  simp only [hl, Option.some.injEq, exists_eq_left', forall_eq'] at h1 h2
  cases err with
  | some e =>
    simp only [reduceCtorEq, false_iff] at h1
    simp only [reduceCtorEq, false_iff, not_and]
    intro h; exact absurd h h1
  | none =>
    simp only [true_iff] at h1
    have h3 := h2 rfl
    simp only [h1, true_and, Except.ok.injEq]
    rw [h3]
    simp only [Option.getD_some]
    rw [List.zip_map_right]
    constructor
    · rintro rfl
      apply List.ext_getElem <;> simp
    · rintro rfl
      apply List.ext_getElem <;> simp

/-- **C126 (time bars).** For time bars the samples of the old trades are samples of the longer data, in the same places, with the same
features; and the label of a sample stays if its window — from the first trade at or after its bar — ends before the new trades. -/
theorem C126_time (log log1p : K → K) (rndOf : K → K → Int) (inferTick : List K → Except String K) (sp : TrainingSpec K)
    (tr more : KitTrades K) (n m : Nat) (h0 : 0 < n) (hn : tr.HasLength n) (hm : more.HasLength m) (I : Int) (hI : 0 < I)
    (t0 : Int) (ht0 : more.ts.head? = some t0) (hs : (tr.ts ++ more.ts).Pairwise (· ≤ ·)) (hidx : sp.args.idx = none)
    (hf : ∀ (k : Nat), ∀ f ∈ sp.feats, f.Commutes (List.take k))
    (T : List (Int × Ohlcv K)) (hT : (kitCall log log1p rndOf inferTick tr (.time I) BuilderState.fresh .ohlcv).2 = .ok (.bars T))
    (out : ColFrame (List (Option K)))
    (hout : buildKit (fun name => (sp.cols name).map (fun g => T.map g)) sp.retain sp.feats = .ok out)
    (hval : ∀ nm ∈ sp.names, ∃ (i : Nat) (row : Int × Ohlcv K), T[i]? = some row ∧ row.1 < t0 ∧ ((out nm).getD []).getD i none ≠ none)
    (S : List (EventRow K × TbmRowOut K))
    (hS : trainingSet log log1p rndOf inferTick sp tr (.time I) = .ok S) :
    ∃ S', trainingSet log log1p rndOf inferTick sp (tr.append more) (.time I) = .ok S' ∧
      S.map Prod.fst <+: S'.map Prod.fst ∧
      ∀ (k : Nat) (p : EventRow K × TbmRowOut K), S[k]? = some p →
        (∀ t ∈ more.ts, tr.ts.getD (searchLeft tr.ts p.1.ts) 0 + sp.args.vertical < t) → S'[k]? = some p := by
  obtain ⟨⟨T1, T', hT1, hT', hst, hrows⟩, _⟩ := C117_time log log1p rndOf inferTick tr more n hn m hm I hI h0 t0 ht0 hs
  obtain rfl : T = T1 := by
    rw [hT] at hT1
    simpa using hT1
  have hstrict := time_stamps_strict log log1p rndOf inferTick tr I hI T hT
  -- the bars stamped before the first new trade
  obtain ⟨j, hjT, hjlt, hjge⟩ := split_before (T.map Prod.fst) (hstrict.imp le_of_lt) t0
  rw [List.length_map] at hjT
  have hjT' : T'.take j = T.take j := by
    apply List.ext_getElem?
    intro k
    rw [List.getElem?_take, List.getElem?_take]
    by_cases hk : k < j
    · rw [if_pos hk, if_pos hk]
      have hkT : k < T.length := by omega
      have := hjlt k (by simpa using hkT) hk
      rw [List.getElem_map] at this
      rw [List.getElem?_eq_getElem hkT]
      exact hrows k _ (List.getElem?_eq_getElem hkT) this
    · rw [if_neg hk, if_neg hk]
  have hlenj : (T.take j).length = j := by rw [List.length_take]; omega
  -- the features of these bars
  have cf : ∀ U : List (Int × Ohlcv K), U.take j = T.take j →
      buildKit (fun name => (sp.cols name).map (fun g => (T.take j).map g)) sp.retain sp.feats =
        (buildKit (fun name => (sp.cols name).map (fun g => U.map g)) sp.retain sp.feats).map (fun q name => (q name).map (List.take j)) := by
    intro U hU
    rw [← C93_causal j _ sp.retain sp.feats (hf j)]
    congr 1
    funext name
    cases sp.cols name with
    | none => rfl
    | some g => simp [← hU, List.map_take]
  have cf1 := cf T rfl
  have cf2 := cf T' hjT'
  rw [cf1, hout] at cf2
  cases hout' : buildKit (fun name => (sp.cols name).map (fun g => T'.map g)) sp.retain sp.feats with
  | error e => rw [hout'] at cf2; simp [Except.map] at cf2
  | ok out' =>
  rw [hout'] at cf2
  simp only [Except.map, Except.ok.injEq] at cf2
  -- the rows
  have hsp : ∀ U : List (Int × Ohlcv K), U.take j = T.take j → U.map Prod.fst = (T.take j).map Prod.fst ++ (U.drop j).map Prod.fst := by
    intro U hU; rw [← hU, ← List.map_append, List.take_append_drop]
  obtain ⟨r, hr⟩ := featureRows_append sp.names sp.target sp.sideOf ((T.take j).map Prod.fst) ((T.drop j).map Prod.fst)
    (fun name => (out name).map (List.take j)) out (by rw [List.length_map, hlenj])
  obtain ⟨r', hr'⟩ := featureRows_append sp.names sp.target sp.sideOf ((T.take j).map Prod.fst) ((T'.drop j).map Prod.fst)
    (fun name => (out name).map (List.take j)) out' (by rw [List.length_map, hlenj, cf2])
  rw [← hsp T rfl] at hr
  rw [← hsp T' hjT'] at hr'
  have hXts := featureRows_ts sp.names sp.target sp.sideOf ((T.take j).map Prod.fst) (fun name => (out name).map (List.take j))
  have hXv : ∀ c, c < sp.names.length → firstValid c (featureRows sp.names sp.target sp.sideOf ((T.take j).map Prod.fst)
      (fun name => (out name).map (List.take j))) ≠ none := by
    intro c hc
    obtain ⟨i, row, hi, hlt, hv⟩ := hval sp.names[c] (List.getElem_mem hc)
    obtain ⟨hiT, hi2⟩ := List.getElem?_eq_some_iff.mp hi
    have hij : i < j := by
      by_contra hcon
      have := hjge i (by simpa using hiT) (by omega)
      rw [List.getElem_map, hi2] at this
      omega
    refine firstValid_featureRows _ _ _ _ _ c hc i (by rw [List.length_map, hlenj]; exact hij) ?_
    cases ho : out sp.names[c] with
    | none => rw [ho] at hv; simp at hv
    | some l =>
      rw [ho] at hv
      simp only [Option.map_some, Option.getD_some] at hv ⊢
      rw [getD_take_lt _ _ _ _ hij]; exact hv
  have hrts : ∀ a ∈ r, t0 ≤ a.ts := by
    intro a ha
    have e := featureRows_ts sp.names sp.target sp.sideOf (T.map Prod.fst) out
    rw [hr, List.map_append, hXts, hsp T rfl] at e
    have e2 := List.append_cancel_left e
    have : a.ts ∈ (T.drop j).map Prod.fst := by rw [← e2]; exact List.mem_map_of_mem ha
    rw [List.map_drop] at this
    obtain ⟨k, hk, hk2⟩ := List.getElem_of_mem this
    rw [List.getElem_drop] at hk2
    rw [← hk2]
    exact hjge _ (by rw [List.length_drop] at hk; omega) (by omega)
  generalize hX : featureRows sp.names sp.target sp.sideOf ((T.take j).map Prod.fst) (fun name => (out name).map (List.take j)) = X at *
  have hXs : X.Pairwise (fun a b => a.ts ≤ b.ts) := by
    have : (X.map (·.ts)).Pairwise (· ≤ ·) := by
      rw [hXts, List.map_take]
      exact (hstrict.imp le_of_lt).sublist (List.take_sublist _ _)
    rwa [List.pairwise_map] at this
  obtain ⟨l, hl⟩ : ∃ l, tr.ts.getLast? = some l := by
    cases hq : tr.ts.getLast? with
    | some l => exact ⟨l, rfl⟩
    | none =>
      rw [List.getLast?_eq_none_iff] at hq
      have := hn.ts
      rw [hq] at this
      simp at this
      omega
  have hlt0 : l ≤ t0 := (List.pairwise_append.mp hs).2.2 l (List.mem_of_getLast? hl) t0 (List.mem_of_head? ht0)
  obtain ⟨l', hl', hll⟩ : ∃ l', (tr.append more).ts.getLast? = some l' ∧ l ≤ l' := by
    simp only [KitTrades.append]
    cases hq : more.ts.getLast? with
    | none =>
      rw [List.getLast?_eq_none_iff] at hq
      rw [hq] at ht0; cases ht0
    | some q =>
      refine ⟨q, by rw [List.getLast?_append, hq]; rfl,
        (List.pairwise_append.mp hs).2.2 l (List.mem_of_getLast? hl) q (List.mem_of_getLast? hq)⟩
  -- the label objects
  have hnewEx : ∃ o, tbmNew { sp.args with rows := featureRows sp.names sp.target sp.sideOf (T.map Prod.fst) out, nCols := sp.names.length } =
      .ok o := by
    cases hq : tbmNew { sp.args with rows := featureRows sp.names sp.target sp.sideOf (T.map Prod.fst) out, nCols := sp.names.length } with
    | ok o => exact ⟨o, rfl⟩
    | error e =>
      unfold trainingSet at hS
      rw [hT] at hS
      simp only [hout, hq] at hS
      cases hS
  obtain ⟨o, hnew⟩ := hnewEx
  obtain ⟨b, t, x, hbt, hmr, hx, ho, hmk⟩ := tbmNew_inv sp.args sp.names.length _ o hnew
  rw [hr] at hx
  obtain ⟨p, hp⟩ := preprocess_pred sp.names.length (b.npMax t) sp.args.minRet X r x hXv hx
  obtain ⟨hx1, hx2⟩ := (hp r x).mp hx
  have hmin : 0 ≤ o.minRet := by rw [ho]; exact hmr
  obtain ⟨⟨hlen, hv, a, ha, hal⟩, hSe⟩ := (trainingSet_ok log log1p rndOf inferTick sp tr (.time I) T hT out hout o hnew hmin l hl S).mp hS
  have horig : o.orig = x := by rw [ho]
  have hover : o.vertical = sp.args.vertical := by rw [ho]
  have hrf : (r.filter p).filter (fun q => decide (q.ts + o.vertical ≤ l)) = [] := by
    rw [List.filter_eq_nil_iff]
    intro q hq
    have := hrts q (List.mem_of_mem_filter hq)
    simp only [decide_eq_true_eq]
    omega
  have haX : a ∈ X.filter p := by
    rw [horig, hx1, List.filter_append, List.mem_append] at ha
    rcases ha with ha | ha
    · exact ha
    · have := hrts a (List.mem_of_mem_filter ha)
      omega
  have hx' : preprocessEvents sp.names.length (b.npMax t) sp.args.minRet (featureRows sp.names sp.target sp.sideOf (T'.map Prod.fst) out') =
      .ok ((X ++ r').filter p) := by
    rw [hr']
    refine (hp r' _).mpr ⟨rfl, fun hcon => ?_⟩
    rw [List.filter_append, List.append_eq_nil_iff] at hcon
    rw [hcon.1] at haX
    simp at haX
  have hnew' := hmk _ _ hx'
  have hok := trainingSet_ok log log1p rndOf inferTick sp (tr.append more) (.time I) T' hT' out' hout' _ hnew' hmr l' hl'
  refine ⟨_, (hok _).mpr ⟨⟨?_, hover ▸ hv, a, ?_, by simp only; omega⟩, rfl⟩, ?_⟩
  · simp [KitTrades.append, hn.ts, hn.prices, hm.ts, hm.prices]
  · simp only [List.filter_append, List.mem_append]; exact Or.inl haX
  simp only
  obtain ⟨z, hz⟩ := filter_upto_prefix (X.filter p) (hXs.sublist List.filter_sublist) o.vertical l l' hll
  rw [hSe, horig, hx1, List.filter_append, List.filter_append, hrf, List.append_nil, List.filter_append, ← hover, List.filter_append, hz, List.append_assoc]
  have hFl : ∀ q ∈ (X.filter p).filter (fun q => decide (q.ts + o.vertical ≤ l)), q.ts + o.vertical ≤ l := by
    intro q hq
    simpa using (List.mem_filter.mp hq).2
  generalize (X.filter p).filter (fun q => decide (q.ts + o.vertical ≤ l)) = F at hFl ⊢
  constructor
  · rw [List.map_map, List.map_map, List.map_append]
    exact ⟨_, rfl⟩
  · intro k q hq hset
    have hkF : k < F.length := by
      have := (List.getElem?_eq_some_iff.mp hq).1
      simpa using this
    rw [List.map_append, List.getElem?_append_left (by simpa using hkF), List.getElem?_map, List.getElem?_eq_getElem hkF, Option.map_some]
    rw [List.getElem?_map, List.getElem?_eq_getElem hkF, Option.map_some, Option.some.injEq] at hq
    rw [← hq, Option.some.injEq, Prod.mk.injEq]
    refine ⟨rfl, ?_⟩
    have hix : searchLeft tr.ts F[k].ts < tr.ts.length := by
      have h1 := hFl F[k] (List.getElem_mem hkF)
      rcases Nat.lt_or_eq_of_le (searchLeft_le_length tr.ts F[k].ts) with h | h
      · exact h
      · exfalso
        have hne : tr.ts ≠ [] := by rintro hcon; rw [hcon] at hl; cases hl
        have hpos := List.length_pos_iff.mpr hne
        have h2 := (lt_searchLeft (List.pairwise_append.mp hs).1 F[k].ts (tr.ts.length - 1) (by omega)).mp (by omega)
        rw [List.getLast?_eq_some_getLast hne, Option.some.injEq, List.getLast_eq_getElem] at hl
        omega
    have hset' : ∀ t ∈ more.ts, tr.ts.getD (searchLeft tr.ts F[k].ts) 0 + o.vertical < t := by
      rw [← hq] at hset; exact hset
    have hidx' : tbmIndex o tr.ts F[k] = searchLeft tr.ts F[k].ts := by
      unfold tbmIndex; rw [ho]; simp only [hidx]
    have := C123_row log o tr.ts more.ts tr.prices more.prices hlen F[k] (by rw [hidx']; exact hix) (by rw [hidx']; exact hset')
    rw [← this, ho]
    rfl

/-! ### Examples -/

/-- A feature that returns the closing price of the bar. -/
def closeFeature : Feat (List (Option ℚ)) :=
  .single "close" (.leaf ⟨false, ["close"], "close", fun cs => .ok (cs.headD [])⟩)

theorem closeFeature_commutes (k : Nat) : closeFeature.Commutes (List.take k) := by
  intro cs
  cases cs <;> simp [Except.map]

/-- One feature, which is also the target; barriers at one target. -/
def demoSpec (v : Int) : TrainingSpec ℚ where
  cols := fun name => if name = "close" then some (fun row => some row.2.close) else none
  retain := []
  feats := [closeFeature]
  names := ["close"]
  target := 0
  sideOf := fun _ => 1
  args := { rows := [], nCols := 0, hasTarget := true, datetimeIndex := true, barriers := some [.fin 1, .fin 1], minRet := 0, vertical := v,
            minClose := 0, isMeta := false, sideInteger := none, idx := none }

/-- Time of the bar, features, label and time of the touch of every sample. -/
def demoSamples (v : Int) (kind : KitKind ℚ) (tr : KitTrades ℚ) : Option (List (Int × List (Option ℚ) × Int × Option Int)) :=
  (trainingSet id id (fun _ _ => 0) (fun _ => .error "no tick size") (demoSpec v) tr kind).toOption.map
    (·.map (fun p => (p.1.ts, p.1.cells, p.2.out.label, p.2.touchTime)))

/- Non-vacuity of `C126_append`: bars of two trades; two samples, then three. -/
example :
    let tr : KitTrades ℚ := ⟨[0, 1, 2, 3, 4, 9], [1, 2, 4, 2, 5, 5], [1, 1, 1, 1, 1, 1], [1, 1, 1, 1, 1, 1]⟩
    let more : KitTrades ℚ := ⟨[10, 20], [9, 9], [1, 1], [1, 1]⟩
    demoSamples 3 (.tick 2) tr = some [(1, [some 2], 1, some 2), (3, [some 2], 1, some 4)] ∧
    demoSamples 3 (.tick 2) (tr.append more) =
      some [(1, [some 2], 1, some 2), (3, [some 2], 1, some 4), (9, [some 5], 1, some 10)] := by
  exact ⟨by decide +kernel, by decide +kernel⟩

/-- **C126 (the label of a time-bar sample can change).** The bar stamped 5 has no trade at its stamp, so its window starts at the next
trade and reaches beyond the last one: a trade that arrives later changes the label from -1 to 1. -/
theorem C126_time_label_changes :
    let tr : KitTrades ℚ := ⟨[1, 10, 25], [2, 6, 5], [1, 1, 1], [1, 1, 1]⟩
    let more : KitTrades ℚ := ⟨[28], [9], [1], [1]⟩
    demoSamples 20 (.time 5) tr = some [(5, [some 2], -1, some 25)] ∧
    demoSamples 20 (.time 5) (tr.append more) = some [(5, [some 2], 1, some 28)] := by
  exact ⟨by decide +kernel, by decide +kernel⟩

/- Non-vacuity of `C126_time`: two settled samples, then two more. -/
example :
    let tr : KitTrades ℚ := ⟨[1, 10, 31], [2, 6, 5], [1, 1, 1], [1, 1, 1]⟩
    let more : KitTrades ℚ := ⟨[40], [9], [1], [1]⟩
    demoSamples 20 (.time 5) tr = some [(5, [some 2], 0, none), (10, [some 6], 0, none)] ∧
    demoSamples 20 (.time 5) (tr.append more) =
      some [(5, [some 2], 0, none), (10, [some 6], 0, none), (15, [some 6], 1, some 40), (20, [some 6], 1, some 40)] := by
  exact ⟨by decide +kernel, by decide +kernel⟩

end FinML

/-
C156: array accesses of the compiled label loops.
-/
import Mathlib.Data.List.TakeWhile
import Verif.Model.CheckedLabel
import Verif.Model.TbmObject
import Verif.Props.CheckedIndexers
import Verif.Props.TripleBarrier

set_option linter.unusedSectionVars false

namespace FinML

variable {K : Type} [Field K] [LinearOrder K] [IsStrictOrderedRing K]

theorem rd_cons_succ {α : Type} (x : α) (xs : List α) (i : Nat) : rd (x :: xs) ((i + 1 : Nat) : Int) = rd xs (i : Int) := by
  rw [rd_nat, rd_nat, List.getElem?_cons_succ]

theorem rd_cons_zero {α : Type} (x : α) (xs : List α) : rd (x :: xs) ((0 : Nat) : Int) = some x := by
  rw [rd_nat]; rfl

/-! ## The path of one event -/

theorem tbmLoopChk_eq (ts : List Int) (logc : List K) (t0 mc : Int) (side base : K) (ub lb : Ext K) (js : List Nat) (a : TbmAcc K)
    (h : ∀ j ∈ js, j < ts.length ∧ j < logc.length) :
    tbmLoopChk ts logc t0 mc side base ub lb js a = some (tbmLoop ts logc t0 mc side base ub lb js a) := by
  induction js generalizing a with
  | nil => rfl
  | cons j js ih =>
    obtain ⟨h1, h2⟩ := h j (by simp)
    have ih' := fun a => ih a (fun k hk => h k (by simp [hk]))
    simp only [tbmLoopChk, tbmLoop, rd_nat, List.getElem?_eq_getElem h1, List.getElem?_eq_getElem h2, List.getD_eq_getElem _ _ h1,
      List.getD_eq_getElem _ _ h2, ih']
    split
    · rfl
    · split <;> rfl

theorem verticalIdx_lt (ts : List Int) (t0 : Int) (v : Option Int) : verticalIdx ts t0 v < (ts.length : Int) := by
  cases v with
  | none => simp [verticalIdx]
  | some v =>
    have := searchRight_le_length ts (t0 + v)
    simp only [verticalIdx]
    omega

/-- **C156 (one event).** An event stays inside the arrays exactly when its index is a position of the series, and then gives the label of
the model. -/
theorem C156_event (p : TbmParams K) (ts : List Int) (logc : List K) (hl : ts.length = logc.length) (isMeta : Bool) (i0 : Int) (tgt : K) (side : Int) :
    ((tbmEventChk p ts logc isMeta i0 tgt side).isSome ↔ 0 ≤ i0 ∧ i0 < (ts.length : Int)) ∧
    (0 ≤ i0 ∧ i0 < (ts.length : Int) → tbmEventChk p ts logc isMeta i0 tgt side = some (tbmEvent p ts logc isMeta i0.toNat tgt side)) := by
  have key : 0 ≤ i0 ∧ i0 < (ts.length : Int) → tbmEventChk p ts logc isMeta i0 tgt side = some (tbmEvent p ts logc isMeta i0.toNat tgt side) := by
    rintro ⟨h0, h1⟩
    obtain ⟨i, rfl⟩ := Int.eq_ofNat_of_zero_le h0
    have hi : i < ts.length := by omega
    have hi' : i < logc.length := by omega
    unfold tbmEventChk tbmEvent
    simp only [rd_nat, List.getElem?_eq_getElem hi, List.getElem?_eq_getElem hi', List.getD_eq_getElem _ _ hi, List.getD_eq_getElem _ _ hi',
      Int.toNat_natCast]
    by_cases ht : verticalIdx ts ts[i] p.vertical ≤ (i : Int)
    · simp only [ht, if_true]
    · simp only [ht, if_false]
      have hv := verticalIdx_lt ts ts[i] p.vertical
      rw [tbmLoopChk_eq]
      intro j hj
      have := List.mem_range'_1.mp hj
      omega
  refine ⟨⟨?_, fun h => by rw [key h]; rfl⟩, key⟩
  intro h
  by_contra hc
  have hr : rd ts i0 = none := rd_none ts (by omega)
  simp [tbmEventChk, hr] at h

/-! ## The loop over the events -/

/-- The loop over the events visits the entries of the three arrays side by side. -/
theorem tbmEventsChk_zip (p : TbmParams K) (ts : List Int) (logc : List K) (isMeta : Bool) (events : List Int) (targets : List K) (side : List Int)
    (h1 : events.length = targets.length) (h2 : events.length = side.length) :
    tbmEventsChk p ts logc isMeta events targets side =
      (events.zip (targets.zip side)).mapM (fun q => tbmEventChk p ts logc isMeta q.1 q.2.1 q.2.2) := by
  unfold tbmEventsChk
  induction events generalizing targets side with
  | nil => rfl
  | cons e es ih =>
    cases targets with
    | nil => cases h1
    | cons t tg =>
      cases side with
      | nil => cases h2
      | cons s sd =>
        simp only [List.length_cons, Nat.add_right_cancel_iff] at h1 h2
        have ih' := ih tg sd h1 h2
        simp only [List.length_cons, List.range_succ_eq_map, List.mapM_cons, List.mapM_map, Function.comp_def, List.zip_cons_cons]
        simp only [Nat.succ_eq_add_one, rd_cons_succ, rd_cons_zero]
        rw [ih']
        rfl

/-- The loop over the events is safe exactly when every index is a position of the series. -/
theorem tbmEventsChk_iff (p : TbmParams K) (ts : List Int) (logc : List K) (hl : ts.length = logc.length) (isMeta : Bool) (events : List Int)
    (targets : List K) (side : List Int) (h1 : events.length = targets.length) (h2 : events.length = side.length) :
    ((tbmEventsChk p ts logc isMeta events targets side).isSome ↔ ∀ e ∈ events, 0 ≤ e ∧ e < (ts.length : Int)) ∧
    ((∀ e ∈ events, 0 ≤ e ∧ e < (ts.length : Int)) → tbmEventsChk p ts logc isMeta events targets side =
      some (List.zipWith (fun e (x : K × Int) => tbmEvent p ts logc isMeta e x.1 x.2) (events.map Int.toNat) (targets.zip side))) := by
  rw [tbmEventsChk_zip p ts logc isMeta events targets side h1 h2]
  have hm := mapM_some_iff (fun q : Int × K × Int => tbmEventChk p ts logc isMeta q.1 q.2.1 q.2.2)
    (fun q => tbmEvent p ts logc isMeta q.1.toNat q.2.1 q.2.2) (fun q => 0 ≤ q.1 ∧ q.1 < (ts.length : Int))
    (fun q => (C156_event p ts logc hl isMeta q.1 q.2.1 q.2.2).1) (fun q => (C156_event p ts logc hl isMeta q.1 q.2.1 q.2.2).2)
    (events.zip (targets.zip side))
  have hmap : (events.zip (targets.zip side)).map (·.1) = events := by
    rw [List.map_fst_zip]
    simp; omega
  have hP : (∀ q ∈ events.zip (targets.zip side), 0 ≤ q.1 ∧ q.1 < (ts.length : Int)) ↔ ∀ e ∈ events, 0 ≤ e ∧ e < (ts.length : Int) := by
    conv_rhs => rw [← hmap]
    simp only [List.mem_map]
    constructor
    · rintro h e ⟨q, hq, rfl⟩
      exact h q hq
    · intro h q hq
      exact h q.1 ⟨q, hq, rfl⟩
  refine ⟨hm.1.trans hP, fun h => ?_⟩
  rw [hm.2 (hP.mpr h), List.zipWith_map_left, List.zip, List.map_zipWith]

/-- The arguments are accepted: `label/tbm.py:45-60`. -/
def TbmAccepts (p : TbmParams K) (ts : List Int) (close : List K) (events : List Int) (targets : List K) (side : Option (List Int)) : Prop :=
  verticalBad p.vertical = false ∧ 0 ≤ p.minRet ∧ ts.length = close.length ∧ events.length = targets.length ∧ events ≠ [] ∧
    ∀ s, side = some s → events.length = s.length

/-- **C156 (labels).** A call of `triple_barrier` with accepted arguments stays inside the arrays exactly when every event index is a position
of the series; then it gives the labels of the model. -/
theorem C156_triple_barrier (log : K → K) (p : TbmParams K) (ts : List Int) (close : List K) (events : List Int) (targets : List K)
    (side : Option (List Int)) (ha : TbmAccepts p ts close events targets side) :
    ((tripleBarrierChk log p ts close events targets side).isSome ↔ ∀ e ∈ events, 0 ≤ e ∧ e < (ts.length : Int)) ∧
    ((∀ e ∈ events, 0 ≤ e ∧ e < (ts.length : Int)) →
      tripleBarrierChk log p ts close events targets side = some (tripleBarrier log p ts close (events.map Int.toNat) targets side)) := by
  obtain ⟨a1, a2, a3, a4, a5, a6⟩ := ha
  have hl : ts.length = (close.map log).length := by simpa using a3
  have hev : events.map Int.toNat ≠ [] := by simpa using a5
  unfold tripleBarrierChk tripleBarrier
  simp only [a1, Bool.false_eq_true, if_false, not_lt.mpr a2, a3, ne_eq, not_true_eq_false, a4, a5, List.length_map, hev]
  rw [a3] at hl
  cases side with
  | none =>
    have h := tbmEventsChk_iff p ts (close.map log) (a3.trans hl) false events targets (List.replicate events.length 1) a4 (by simp)
    rw [a3] at h
    rw [← a4]
    refine ⟨by simpa using h.1, fun hh => ?_⟩
    rw [h.2 hh]
    dsimp only [Option.map_some]
    congr 2
    apply List.ext_getElem
    · simp; omega
    · intro i h1 h2
      simp
  | some s =>
    have a6' := a6 s rfl
    have h := tbmEventsChk_iff p ts (close.map log) (a3.trans hl) true events targets s a4 a6'
    rw [a3] at h
    have : ¬ targets.length ≠ s.length := by omega
    simp only [this, if_false]
    refine ⟨by simpa using h.1, fun hh => ?_⟩
    rw [h.2 hh]
    rfl

/-! ## The label object -/

theorem searchLeft_lt_of_last (ts : List Int) (v l : Int) (hl : ts.getLast? = some l) (h : v ≤ l) : searchLeft ts v < ts.length := by
  have hle : searchLeft ts v ≤ ts.length := by
    unfold searchLeft
    exact (List.takeWhile_sublist _).length_le
  rcases Nat.lt_or_ge (searchLeft ts v) ts.length with h' | h'
  · exact h'
  · exfalso
    have he : ts.takeWhile (fun x => decide (x < v)) = ts :=
      (List.takeWhile_sublist _).eq_of_length (by unfold searchLeft at h' hle; omega)
    have := List.takeWhile_eq_self_iff.mp he l (List.mem_of_getLast? hl)
    simp only [decide_eq_true_eq] at this
    omega

/-- **C156 (event indices).** `compute_labels` hands `triple_barrier` only positions of the trades, when it looks the events up itself: the events
within the vertical barrier of the last trade are dropped before. -/
theorem C156_label_events (o : TbmObj K) (hidx : o.idx = none) (hv : 0 ≤ o.vertical) (ts : List Int) (l : Int) (hl : ts.getLast? = some l) :
    ∀ r ∈ dropTrailing o.vertical l o.orig, tbmIndex o ts r < ts.length := by
  intro r hr
  have h := (List.mem_filter.mp hr).2
  simp only [decide_eq_true_eq] at h
  unfold tbmIndex
  rw [hidx]
  exact searchLeft_lt_of_last ts r.ts l hl (by omega)

/-! ## The weights of the labels -/

theorem attrStepChk_isSome (lr : List (Option K)) (conc : List Int) (hl : lr.length = conc.length) (w : K) (j : Int) :
    (attrStepChk lr conc w j).isSome ↔ 0 ≤ j ∧ j < (conc.length : Int) := by
  unfold attrStepChk
  have hc := rd_isSome conc j
  have hr := rd_isSome lr j
  rw [hl] at hr
  cases h : rd conc j with
  | none => simpa [h] using hc
  | some c =>
    rw [h] at hc
    have hin := hc.mp rfl
    simp only [hin, and_self, iff_true]
    split
    · cases h' : rd lr j with
      | none => rw [h'] at hr; exact absurd (hr.mpr hin) (by simp)
      | some x => cases x <;> rfl
    · rfl

theorem foldlM_isSome {α β : Type} (f : β → α → Option β) (P : α → Prop) (h : ∀ b a, (f b a).isSome ↔ P a) (l : List α) (b : β) :
    (l.foldlM f b).isSome ↔ ∀ a ∈ l, P a := by
  induction l generalizing b with
  | nil => simp
  | cons a l ih =>
    rw [List.foldlM_cons]
    have ha := h b a
    cases hf : f b a with
    | none =>
      rw [hf] at ha
      have : ¬ P a := fun hp => by simpa using ha.mpr hp
      simp [this]
    | some b' =>
      rw [hf] at ha
      have hp : P a := ha.mp rfl
      have hi : (List.foldlM f b' l).isSome ↔ ∀ a ∈ l, P a := ih b'
      simp only [List.mem_cons, forall_eq_or_imp, hp, true_and]
      exact hi

/-- **C156 (one weight).** The attribution of a label stays inside the arrays exactly when the label covers no bar or only bars of the
series. -/
theorem C156_attribution_label (lr : List (Option K)) (conc : List Int) (hl : lr.length = conc.length) (s : Int × Int) :
    (attrChk lr conc s).isSome ↔ s.2 < s.1 ∨ 0 ≤ s.1 ∧ s.2 < (conc.length : Int) := by
  unfold attrChk
  rw [Option.isSome_map, foldlM_isSome _ (fun j => 0 ≤ j ∧ j < (conc.length : Int)) (attrStepChk_isSome lr conc hl)]
  constructor
  · intro h
    by_cases hs : s.2 < s.1
    · exact Or.inl hs
    · right
      exact ⟨(h s.1 (mem_idxRange_iff.mpr ⟨le_refl _, by omega⟩)).1, (h s.2 (mem_idxRange_iff.mpr ⟨by omega, le_refl _⟩)).2⟩
  · intro h j hj
    have := mem_idxRange_iff.mp hj
    omega

theorem mapM_isSome {α β : Type} (f : α → Option β) (P : α → Prop) (h : ∀ a, (f a).isSome ↔ P a) (l : List α) :
    (l.mapM f).isSome ↔ ∀ a ∈ l, P a := by
  induction l with
  | nil => simp
  | cons a l ih =>
    rw [List.mapM_cons]
    have ha := h a
    cases hf : f a with
    | none =>
      rw [hf] at ha
      have : ¬ P a := fun hp => by simpa using ha.mpr hp
      simp [this]
    | some b =>
      rw [hf] at ha
      have hp : P a := ha.mp rfl
      simp only [List.mem_cons, forall_eq_or_imp, hp, true_and]
      rw [← ih]
      cases h' : List.mapM f l <;> simp [h']

theorem range'_mapM_prev {α β : Type} (f : α → α → β) (x : α) (xs : List α) :
    (List.range' 1 xs.length).mapM (fun i : Nat => do
      let a ← rd (x :: xs) ((i : Int) - 1)
      let b ← rd (x :: xs) (i : Int)
      some (f a b)) = some (List.zipWith f (x :: xs) xs) := by
  have hm : ∀ (l : List Nat) (F : Nat → Option β) (y : List β) (hy : y.length = l.length)
      (hF : ∀ k (hk : k < l.length), F l[k] = some (y[k]'(by omega))), l.mapM F = some y := by
    intro l F
    induction l with
    | nil =>
      intro y hy hF
      cases y with
      | nil => rfl
      | cons b y => cases hy
    | cons a l ih =>
      intro y hy hF
      cases y with
      | nil => cases hy
      | cons b y =>
        rw [List.mapM_cons]
        have h0 : F a = some b := hF 0 (by simp)
        have h1 := ih y (by simpa using hy) (fun k hk => hF (k + 1) (by simpa using hk))
        rw [h0, h1]
        rfl
  apply hm
  · intro k hk
    simp only [List.length_range'] at hk
    simp only [List.getElem_range', Nat.one_mul, List.getElem_zipWith]
    rw [show ((1 + k : Nat) : Int) - 1 = (k : Int) by omega, rd_nat, rd_nat, show 1 + k = k + 1 by omega, List.getElem?_cons_succ,
      List.getElem?_eq_getElem (by simp; omega : k < (x :: xs).length), List.getElem?_eq_getElem (by omega : k < xs.length)]
    rfl
  · simp

/-- The log returns are read inside the array of prices. -/
theorem logReturnsChk_eq (log : K → K) (close : List K) : logReturnsChk log close = some (logReturns log close) := by
  unfold logReturnsChk logReturns
  cases close with
  | nil => rfl
  | cons x xs =>
    simp only [List.cons_ne_nil, if_false, List.length_cons, Nat.add_sub_cancel]
    rw [range'_mapM_prev (fun a b => if a ≠ 0 then some (log (b / a)) else none) x xs]
    rfl

theorem logReturns_len (log : K → K) (close : List K) : (logReturns log close).length = close.length := by
  unfold logReturns
  cases close with
  | nil => rfl
  | cons x xs => simp

/-- **C156 (weights).** `return_attribution` stays inside the arrays exactly when every label covers no bar or only bars of the series. -/
theorem C156_attribution (log : K → K) (spans : List (Int × Int)) (close : List K) (conc : List Int) (hl : close.length = conc.length)
    (normalize : Bool) :
    (returnAttributionChk log spans close conc normalize).isSome ↔ ∀ s ∈ spans, s.2 < s.1 ∨ 0 ≤ s.1 ∧ s.2 < (conc.length : Int) := by
  unfold returnAttributionChk
  rw [logReturnsChk_eq]
  have hm := mapM_isSome (attrChk (logReturns log close) conc) _
    (C156_attribution_label (logReturns log close) conc ((logReturns_len log close).trans hl)) spans
  rw [← hm]
  dsimp only
  cases List.mapM (attrChk (logReturns log close) conc) spans with
  | none => rfl
  | some w =>
    dsimp only
    split <;> (try split) <;> simp

theorem attrFold_eq (lr : List (Option K)) (conc : List Int) (js : List Nat) (hl : lr.length = conc.length) (h : ∀ j ∈ js, j < conc.length) (w : K) :
    (js.map (fun j : Nat => (j : Int))).foldlM (attrStepChk lr conc) w = some (w + (js.map (fun j =>
      match lr.getD j none with
      | none => 0
      | some r => if conc.getD j 0 > 0 then r / ((conc.getD j 0 : Int) : K) else 0)).sum) := by
  induction js generalizing w with
  | nil => simp
  | cons j js ih =>
    have hj := h j (by simp)
    have ih' := fun w => ih (fun k hk => h k (by simp [hk])) w
    simp only [List.map_cons, List.foldlM_cons, List.sum_cons]
    have hs : attrStepChk lr conc w (j : Int) = some (w + (match lr.getD j none with
      | none => 0
      | some r => if conc.getD j 0 > 0 then r / ((conc.getD j 0 : Int) : K) else 0)) := by
      unfold attrStepChk
      rw [rd_nat, rd_nat, List.getElem?_eq_getElem hj, List.getElem?_eq_getElem (by omega : j < lr.length),
        List.getD_eq_getElem _ _ hj, List.getD_eq_getElem _ _ (by omega : j < lr.length)]
      dsimp only
      cases lr[j] with
      | none => simp
      | some r =>
        dsimp only
        split <;> simp
    rw [hs]
    have := ih' (w + (match lr.getD j none with
      | none => 0
      | some r => if conc.getD j 0 > 0 then r / ((conc.getD j 0 : Int) : K) else 0))
    rw [← add_assoc]
    exact this

/-- **C156 (weights, value).** Inside the arrays the weights are those of the model. -/
theorem C156_attribution_value (log : K → K) (spans : List (Nat × Nat)) (close : List K) (conc : List Int) (hl : close.length = conc.length)
    (normalize : Bool) (h : ∀ s ∈ spans, s.2 < conc.length) :
    returnAttributionChk log (spans.map (fun s => ((s.1 : Int), (s.2 : Int)))) close conc normalize =
      some (returnAttribution log spans close conc normalize) := by
  have hlen := (logReturns_len log close).trans hl
  have hw : (spans.map (fun s : Nat × Nat => ((s.1 : Int), (s.2 : Int)))).mapM (attrChk (logReturns log close) conc) =
      some (spans.map (fun s => |attrSum (logReturns log close) conc s|)) := by
    induction spans with
    | nil => rfl
    | cons s spans ih =>
      have hs := h s (by simp)
      have he : attrChk (logReturns log close) conc ((s.1 : Int), (s.2 : Int)) = some |attrSum (logReturns log close) conc s| := by
        unfold attrChk attrSum
        have hr : idxRange (s.1 : Int) (s.2 : Int) = (List.range' s.1 (s.2 + 1 - s.1)).map (fun j : Nat => (j : Int)) := by
          unfold idxRange
          rw [List.range'_eq_map_range, List.map_map, show ((s.2 : Int) + 1 - (s.1 : Int)).toNat = s.2 + 1 - s.1 by omega]
          apply List.map_congr_left
          intro k _
          simp
        dsimp only
        rw [hr, attrFold_eq _ _ _ hlen]
        · rw [Option.map_some, zero_add]
          rfl
        · intro j hj
          have := List.mem_range'_1.mp hj
          omega
      rw [List.map_cons, List.mapM_cons, he, ih (fun t ht => h t (by simp [ht]))]
      rfl
  unfold returnAttributionChk returnAttribution
  rw [logReturnsChk_eq]
  dsimp only
  rw [hw]
  dsimp only
  rw [List.length_map]
  split <;> (try split) <;> rfl

/-- The touch index of a labelled event is a later position of the series. -/
theorem tbmEvent_touch_inside (p : TbmParams K) (ts : List Int) (logc : List K) (isMeta : Bool) (i0 : Nat) (tgt : K) (side : Int) (t : Nat)
    (h : (tbmEvent p ts logc isMeta i0 tgt side).touch = some t) : i0 < t ∧ t < ts.length := by
  unfold tbmEvent at h
  have hv := verticalIdx_lt ts (ts.getD i0 0) p.vertical
  dsimp only at h
  generalize verticalIdx ts (ts.getD i0 0) p.vertical = t1 at h hv
  split at h
  · cases h
  · rename_i hle
    simp only [Option.some.injEq] at h
    rcases tbmLoop_spec ts logc (ts.getD i0 0) p.minClose (side : K) (logc.getD i0 0) (p.top.scale tgt) (p.bottom.scale (-tgt))
      (List.range' (i0 + 1) (t1.toNat - i0)) ⟨none, 0, 0, 0⟩ rfl with ⟨pre, j, post, h1, -, -, -, h5, -⟩ | ⟨-, h2, -, -⟩
    · rw [h5, Option.getD_some] at h
      have hj : j ∈ List.range' (i0 + 1) (t1.toNat - i0) := by rw [h1]; simp
      have := List.mem_range'_1.mp hj
      omega
    · rw [h2, Option.getD_none] at h
      omega

/-- What `compute_labels` stores: event indices and touch indices that are positions of the trades. -/
theorem tbmCompute_rows (log : K → K) (o : TbmObj K) (ts : List Int) (close : List K) (l : Int) (hl : ts.getLast? = some l)
    (hev : ∀ r ∈ dropTrailing o.vertical l o.orig, tbmIndex o ts r < ts.length) (rows : List (TbmRowOut K))
    (hok : (tbmCompute log o ts close).2 = none) (hrows : (tbmCompute log o ts close).1.rowsOut = some rows) :
    ∀ r ∈ rows, r.eventIdx < ts.length ∧ ∀ t, r.out.touch = some t → r.eventIdx < t ∧ t < ts.length := by
  unfold tbmCompute at hok hrows
  rw [hl] at hok hrows
  dsimp only at hok hrows
  generalize hp : (⟨o.bottom, o.top, some o.vertical, o.minClose, o.minRet⟩ : TbmParams K) = p at hok hrows
  generalize hx : dropTrailing o.vertical l o.orig = x at hok hrows hev
  cases hres : tripleBarrier log p ts close (x.map (tbmIndex o ts)) (x.map (fun r => r.target.getD 0))
      (if o.isMeta then some (x.map (fun r => castInt8 r.side)) else none) with
  | error e => rw [hres] at hok; cases hok
  | ok res =>
    rw [hres] at hrows
    simp only [Option.some.injEq] at hrows
    have hout : ∀ i (hi : i < res.length) (hx : i < x.length), ∃ m tgt side, res[i] = tbmEvent p ts (close.map log) m (tbmIndex o ts x[i]) tgt side := by
      intro i hi hxi
      unfold tripleBarrier at hres
      split at hres
      · cases hres
      split at hres
      · cases hres
      split at hres
      · cases hres
      split at hres
      · cases hres
      split at hres
      · cases hres
      dsimp only at hres
      cases hm : o.isMeta with
      | false =>
        rw [hm] at hres
        simp only [Bool.false_eq_true, if_false, Except.ok.injEq] at hres
        subst hres
        exact ⟨false, x[i].target.getD 0, 1, by simp⟩
      | true =>
        rw [hm] at hres
        simp only [if_true] at hres
        split at hres
        · cases hres
        · simp only [Except.ok.injEq] at hres
          subst hres
          exact ⟨true, x[i].target.getD 0, castInt8 x[i].side, by simp⟩
    intro r hr
    rw [← hrows] at hr
    obtain ⟨i, hi, rfl⟩ := List.mem_iff_getElem.mp hr
    simp only [List.length_zipWith, List.length_zip, List.length_map] at hi
    have hxi : i < x.length := by omega
    have hri : i < res.length := by omega
    simp only [List.getElem_zipWith, List.getElem_zip, List.getElem_map]
    obtain ⟨m, tgt, side, he⟩ := hout i hri hxi
    refine ⟨hev _ (List.getElem_mem hxi), fun t ht => ?_⟩
    rw [he] at ht
    exact tbmEvent_touch_inside _ _ _ _ _ _ _ t ht

/-- The index arrays as `compute_weights` hands them on; `g` is the content of the memory never written (`label/tbm.py:72` `np.empty`). -/
def rawSpans (g : Int) (rows : List (TbmRowOut K)) : List (Int × Int) :=
  rows.map (fun r => ((r.eventIdx : Int), match r.out.touch with | some t => (t : Int) | none => g))

/-- **C156 (weights of the labels).** After a successful `compute_labels` on the same trades, the attribution of the returns stays inside the
arrays, whatever the memory held before, exactly when every event was labelled, that is when no event was skipped for want of a trade
before its vertical barrier. -/
theorem C156_weights_iff (log : K → K) (o : TbmObj K) (ts : List Int) (close : List K) (l : Int) (hl : ts.getLast? = some l)
    (hev : ∀ r ∈ dropTrailing o.vertical l o.orig, tbmIndex o ts r < ts.length) (rows : List (TbmRowOut K))
    (hok : (tbmCompute log o ts close).2 = none) (hrows : (tbmCompute log o ts close).1.rowsOut = some rows) (conc : List Int)
    (h1 : conc.length = ts.length) (h2 : close.length = ts.length) (normalize : Bool) :
    (∀ g : Int, (returnAttributionChk log (rawSpans g rows) close conc normalize).isSome) ↔ ∀ r ∈ rows, r.out.touch.isSome := by
  have hr := tbmCompute_rows log o ts close l hl hev rows hok hrows
  constructor
  · intro h r hm
    by_contra hn
    rw [Bool.not_eq_true, Option.isSome_eq_false_iff, Option.isNone_iff_eq_none] at hn
    have := (C156_attribution log (rawSpans (ts.length : Int) rows) close conc (h2.trans h1.symm) normalize).mp (h _)
      ((r.eventIdx : Int), (ts.length : Int)) (List.mem_map.mpr ⟨r, hm, by simp only [hn]⟩)
    have := (hr r hm).1
    omega
  · intro h g
    rw [C156_attribution log _ close conc (h2.trans h1.symm) normalize]
    intro s hs
    obtain ⟨r, hm, rfl⟩ := List.mem_map.mp hs
    right
    cases ht : r.out.touch with
    | none => simpa [ht] using h r hm
    | some t =>
      have := (hr r hm).2 t ht
      simp only
      omega

/-! ## Concrete runs -/

/-- Trades in two clusters. -/
def gapTs : List Int := [0, 10, 20, 100, 110, 200]
/-- Their prices. -/
def gapClose : List ℚ := [1, 2, 1, 2, 1, 1]
/-- Barriers that are never reached and a vertical barrier of 30 ns. -/
def gapParams : TbmParams ℚ := ⟨.fin 9, .fin 9, some 30, 0, 0⟩
/-- Labels with a vertical barrier of 30 ns and events at the given times. -/
def gapObj (evs : List Int) : TbmObj ℚ :=
  let rows := evs.map (fun t => ⟨t, [some 1], some 1, 0⟩)
  ⟨.fin 9, .fin 9, 0, 30, 0, false, none, rows, rows, none⟩
/-- The same events with an index column that points behind the trades. -/
def gapObjIdx (evs : List Int) (k : Nat) : TbmObj ℚ := { gapObj evs with idx := some (fun _ => k) }

/-- Two labelled events. -/
example : tripleBarrierChk (fun x : ℚ => x) gapParams gapTs gapClose [0, 3] [1, 1] none =
    some (tripleBarrier (fun x : ℚ => x) gapParams gapTs gapClose [0, 3] [1, 1] none) := by decide +kernel

example : TbmAccepts gapParams gapTs gapClose [0, 3] [1, 1] none ∧ (∀ e ∈ ([0, 3] : List Int), 0 ≤ e ∧ e < (gapTs.length : Int)) :=
  ⟨⟨by decide +kernel, by decide +kernel, by decide, by decide, by decide, by simp⟩, by decide⟩

/-- The index behind the last trade is read, and so is a negative one. -/
example : tripleBarrierChk (fun x : ℚ => x) gapParams gapTs gapClose [0, 6] [1, 1] none = none ∧
    tripleBarrierChk (fun x : ℚ => x) gapParams gapTs gapClose [0, -1] [1, 1] none = none := by decide +kernel

/-- **C156 (violation).** The indices of an `event_idx` column are used as they are: a column that points behind the trades passes every check
of `compute_labels` and `triple_barrier`, and the compiled loop reads outside the arrays. -/
theorem C156_event_column :
    (tbmCompute (fun x : ℚ => x) (gapObjIdx [0, 100] 6) gapTs gapClose).2 = none ∧
    tripleBarrierChk (fun x : ℚ => x) gapParams gapTs gapClose [6, 6] [1, 1] none = none := by decide +kernel

/-- The label object looks its events up inside the trades. -/
example : (gapObj [0, 20, 100]).idx = none ∧ 0 ≤ (gapObj [0, 20, 100]).vertical ∧ gapTs.getLast? = some 200 := by decide +kernel

/-- The rows of a successful call. -/
def gapRows (evs : List Int) : List (TbmRowOut ℚ) := ((tbmCompute (fun x : ℚ => x) (gapObj evs) gapTs gapClose).1.rowsOut).getD []

/-- The hypotheses of `C156_weights_iff` hold, with every event labelled. -/
example : (tbmCompute (fun x : ℚ => x) (gapObj [0, 100]) gapTs gapClose).2 = none ∧
    (tbmCompute (fun x : ℚ => x) (gapObj [0, 100]) gapTs gapClose).1.rowsOut = some (gapRows [0, 100]) ∧
    (∀ r ∈ dropTrailing (gapObj [0, 100]).vertical 200 (gapObj [0, 100]).orig, tbmIndex (gapObj [0, 100]) gapTs r < gapTs.length) ∧
    (gapRows [0, 100]).map (fun r => (r.eventIdx, r.out.touch)) = [(0, some 2), (3, some 4)] := by decide +kernel

/-- **C156 (violation).** No trade follows the trade at 20 within its vertical barrier: the event is skipped, its touch index is whatever the
memory held, and `compute_weights` reads outside the arrays if that lies behind the last trade.  The last trade is late enough, so the
event is not dropped before. -/
theorem C156_skipped_event :
    (tbmCompute (fun x : ℚ => x) (gapObj [0, 20, 100]) gapTs gapClose).2 = none ∧
    (gapRows [0, 20, 100]).map (fun r => (r.eventIdx, r.out.touch)) = [(0, some 2), (2, none), (3, some 4)] ∧
    returnAttributionChk (fun x : ℚ => x) (rawSpans 6 (gapRows [0, 20, 100])) gapClose [1, 1, 1, 1, 1, 0] false = none ∧
    (returnAttributionChk (fun x : ℚ => x) (rawSpans 5 (gapRows [0, 20, 100])) gapClose [1, 1, 1, 1, 1, 0] false).isSome = true := by
  decide +kernel

/-- Labels inside the series. -/
example : (∀ s ∈ ([(0, 2), (3, 4)] : List (Nat × Nat)), s.2 < ([1, 1, 1, 1, 1, 0] : List Int).length) ∧
    gapClose.length = ([1, 1, 1, 1, 1, 0] : List Int).length := by decide +kernel

/-- A touch index. -/
example : (tbmEvent gapParams gapTs gapClose false 0 1 1).touch = some 2 := by decide +kernel

example : ∀ j ∈ ([1, 2] : List Nat), j < gapTs.length ∧ j < gapClose.length := by decide +kernel

end FinML

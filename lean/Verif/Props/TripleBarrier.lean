/-
C24 - C26: triple-barrier labels (`finmlkit/label/tbm.py`).
-/
import Verif.Spec.Label
import Verif.Lemmas.Search
import Mathlib.Data.List.GetD
import Mathlib.Tactic.Linarith
import Mathlib.Tactic.Ring
import Mathlib.Tactic.FieldSimp
import Mathlib.Algebra.Order.Ring.Rat
import Mathlib.Algebra.Order.Field.Basic

set_option linter.unusedSectionVars false

namespace FinML

variable {K : Type} [Field K] [LinearOrder K] [IsStrictOrderedRing K]

/-! ## Barriers -/

theorem leFin_scale (m : Ext K) (tgt r : K) : (m.scale tgt).leFin r = true ↔ UpperHit m tgt r := by
  cases m with
  | fin x => simp [Ext.scale, Ext.leFin, UpperHit]
  | pinf =>
    simp only [Ext.scale, UpperHit]
    split_ifs with h1 h2
    · simp [Ext.leFin, h1.le]
    · simp [Ext.leFin, h2]
    · simp [Ext.leFin]; exact not_lt.mp h2
  | ninf =>
    simp only [Ext.scale, UpperHit]
    split_ifs with h1 h2
    · simp [Ext.leFin, h1]
    · simp [Ext.leFin, h2.le]
    · simp [Ext.leFin]; exact not_lt.mp h1
  | nan => simp [Ext.scale, Ext.leFin, UpperHit]

theorem geFin_scale (m : Ext K) (tgt r : K) : (m.scale (-tgt)).geFin r = true ↔ LowerHit m tgt r := by
  cases m with
  | fin x => simp [Ext.scale, Ext.geFin, LowerHit]
  | pinf =>
    simp only [Ext.scale, LowerHit]
    split_ifs with h1 h2
    · simp [Ext.geFin]; linarith
    · simp [Ext.geFin]; linarith
    · simp [Ext.geFin]; linarith
  | ninf =>
    simp only [Ext.scale, LowerHit]
    split_ifs with h1 h2
    · simp [Ext.geFin]; linarith
    · simp [Ext.geFin]; linarith
    · simp [Ext.geFin]; linarith
  | nan => simp [Ext.scale, Ext.geFin, LowerHit]

/-! ## The path loop -/

theorem tbmProgress_touch (ub lb : Ext K) (r : K) (a : TbmAcc K) :
    (tbmProgress ub lb r a).touch = a.touch ∧ (tbmProgress ub lb r a).ret = a.ret := by
  unfold tbmProgress
  split <;> try exact ⟨rfl, rfl⟩
  split <;> exact ⟨rfl, rfl⟩

/-- First passage of the loop. -/
theorem tbmLoop_spec (ts : List Int) (logc : List K) (t0 mc : Int) (side base : K) (ub lb : Ext K) (js : List Nat) :
    ∀ a : TbmAcc K, a.touch = none →
    let res := tbmLoop ts logc t0 mc side base ub lb js a
    let el := fun j => mc ≤ ts.getD j 0 - t0
    let rj := fun j => (logc.getD j 0 - base) * side
    let hit := fun j => (ub.leFin (rj j) || lb.geFin (rj j)) = true
    (∃ pre j post, js = pre ++ j :: post ∧ el j ∧ hit j ∧ (∀ k ∈ pre, el k → ¬ hit k) ∧
      res.touch = some j ∧ res.ret = rj j) ∨
    ((∀ k ∈ js, el k → ¬ hit k) ∧ res.touch = none ∧ ((∀ k ∈ js, ¬ el k) → res.ret = a.ret) ∧
      (∀ pre k, js = pre ++ [k] → el k → res.ret = rj k)) := by
  induction js with
  | nil =>
    intro a ha
    right
    refine ⟨by simp, ha, fun _ => rfl, fun pre k h => by simp at h⟩
  | cons j js ih =>
    intro a ha
    simp only [tbmLoop]
    by_cases he : ts.getD j 0 - t0 < mc
    · rw [if_pos he]
      rcases ih a ha with ⟨pre, k, post, h1, h2, h3, h4, h5, h6⟩ | ⟨h1, h2, h3, h4⟩
      · left
        refine ⟨j :: pre, k, post, by rw [h1]; rfl, h2, h3, ?_, h5, h6⟩
        intro m hm hel
        rcases List.mem_cons.mp hm with rfl | hm
        · omega
        · exact h4 m hm hel
      · right
        refine ⟨?_, h2, ?_, ?_⟩
        · intro m hm hel
          rcases List.mem_cons.mp hm with rfl | hm
          · omega
          · exact h1 m hm hel
        · intro h
          exact h3 (fun k hk => h k (List.mem_cons_of_mem _ hk))
        · intro pre k hk hel
          cases pre with
          | nil =>
            simp only [List.nil_append, List.cons.injEq] at hk
            obtain ⟨rfl, rfl⟩ := hk
            omega
          | cons x pre =>
            simp only [List.cons_append, List.cons.injEq] at hk
            exact h4 pre k hk.2 hel
    · rw [if_neg he]
      have hp := tbmProgress_touch ub lb ((logc.getD j 0 - base) * side) { a with ret := (logc.getD j 0 - base) * side }
      by_cases hh : (ub.leFin ((logc.getD j 0 - base) * side) || lb.geFin ((logc.getD j 0 - base) * side)) = true
      · rw [if_pos hh]
        left
        exact ⟨[], j, js, rfl, by omega, hh, by simp, rfl, hp.2⟩
      · rw [if_neg hh]
        rcases ih _ (hp.1.trans ha) with ⟨pre, k, post, h1, h2, h3, h4, h5, h6⟩ | ⟨h1, h2, h3, h4⟩
        · left
          refine ⟨j :: pre, k, post, by rw [h1]; rfl, h2, h3, ?_, h5, h6⟩
          intro m hm hel
          rcases List.mem_cons.mp hm with rfl | hm
          · exact hh
          · exact h4 m hm hel
        · right
          refine ⟨?_, h2, ?_, ?_⟩
          · intro m hm hel
            rcases List.mem_cons.mp hm with rfl | hm
            · exact hh
            · exact h1 m hm hel
          · intro h
            exact absurd (show mc ≤ ts.getD j 0 - t0 by omega) (h j List.mem_cons_self)
          · intro pre k hk hel
            cases pre with
            | nil =>
              simp only [List.nil_append, List.cons.injEq] at hk
              obtain ⟨rfl, rfl⟩ := hk
              rw [h3 (by simp)]
              exact hp.2
            | cons x pre =>
              simp only [List.cons_append, List.cons.injEq] at hk
              exact h4 pre k hk.2 hel

/-- The vertical barrier bar exists and is at or after the event. -/
theorem verticalIdx_spec {ts : List Int} (hs : ts.Pairwise (· ≤ ·)) {i0 : Nat} (hi : i0 < ts.length) (v : Option Int)
    (hv : ∀ x, v = some x → 0 < x) :
    ∃ t1 : Nat, verticalIdx ts (ts.getD i0 0) v = (t1 : Int) ∧ IsVerticalBar ts i0 v t1 := by
  cases v with
  | none =>
    refine ⟨ts.length - 1, by simp only [verticalIdx]; omega, by omega, by omega, ?_⟩
    intro j hj
    simp; omega
  | some v =>
    have hv := hv v rfl
    have h0 : i0 < searchRight ts (ts.getD i0 0 + v) := by
      rw [lt_searchRight hs _ _ hi]
      rw [List.getD_eq_getElem _ _ hi]; omega
    have hl := searchRight_le_length ts (ts.getD i0 0 + v)
    refine ⟨searchRight ts (ts.getD i0 0 + v) - 1, by simp only [verticalIdx]; omega, by omega, by omega, ?_⟩
    intro j hj
    have := lt_searchRight hs (ts.getD i0 0 + v) j hj
    simp only
    rw [List.getD_eq_getElem _ _ hj, ← this]
    omega

/-- C24: for every event the returned touch index is the earliest closable bar at which the side-adjusted log return is at
or beyond a horizontal barrier, together with the return at that bar; when there is none it is the bar of the vertical
barrier, with the return at that bar provided the minimum holding time has passed by then (return 0 otherwise).  The label
is the sign of the return (zero counting as positive), in meta mode whether the return reaches `min_ret`.  If no bar lies
between the event and the vertical barrier the event is skipped.  Missing from the property: in the skipped case the touch
index is not defined, and the return of a too short window is 0, see the two theorems below. -/
theorem C24_first_touch_partial (p : TbmParams K) {ts : List Int} (hs : ts.Pairwise (· ≤ ·)) (logc : List K)
    (isMeta : Bool) {i0 : Nat} (hi : i0 < ts.length) (tgt : K) (side : Int) (hv : ∀ x, p.vertical = some x → 0 < x) :
    ∃ t1, IsVerticalBar ts i0 p.vertical t1 ∧
      (t1 = i0 → tbmEvent p ts logc isMeta i0 tgt side = ⟨0, none, none, none⟩) ∧
      (i0 < t1 → ∃ touch r ratio, tbmEvent p ts logc isMeta i0 tgt side =
          ⟨if isMeta then (if p.minRet ≤ r then 1 else 0) else (if 0 ≤ r then 1 else -1), some touch, some r, ratio⟩ ∧
        (FirstTouch p ts logc i0 t1 tgt side touch r ∨
          NoTouch p ts logc i0 t1 tgt side ∧ touch = t1 ∧
            r = if Closable ts i0 t1 p.minClose t1 then pathReturn logc i0 side t1 else 0)) := by
  obtain ⟨t1, he, hvb⟩ := verticalIdx_spec hs hi p.vertical hv
  refine ⟨t1, hvb, ?_, ?_⟩
  · intro h
    simp only [tbmEvent, he]
    rw [if_pos (by omega)]
  · intro h
    simp only [tbmEvent, he]
    rw [if_neg (by omega)]
    have hspec := tbmLoop_spec ts logc (ts.getD i0 0) p.minClose (side : K) (logc.getD i0 0) (p.top.scale tgt)
      (p.bottom.scale (-tgt)) (List.range' (i0 + 1) ((t1 : Int).toNat - i0)) ⟨none, 0, 0, 0⟩ rfl
    simp only at hspec
    have hlab : ∀ r : K, tbmLabel isMeta p.minRet r =
        if isMeta then (if p.minRet ≤ r then 1 else 0) else (if 0 ≤ r then 1 else -1) := by
      intro r
      unfold tbmLabel
      cases isMeta with
      | true => simp
      | false =>
        simp only [Bool.false_eq_true, if_false]
        split_ifs with h1 h2 h3 h4 <;> first | rfl | (exfalso; linarith)
    have hhit : ∀ j, ((p.top.scale tgt).leFin ((logc.getD j 0 - logc.getD i0 0) * (side : K)) ||
        (p.bottom.scale (-tgt)).geFin ((logc.getD j 0 - logc.getD i0 0) * (side : K))) = true ↔
        (UpperHit p.top tgt (pathReturn logc i0 side j) ∨ LowerHit p.bottom tgt (pathReturn logc i0 side j)) := by
      intro j
      rw [Bool.or_eq_true, leFin_scale, geFin_scale]
      rfl
    have hmem : ∀ j, j ∈ List.range' (i0 + 1) ((t1 : Int).toNat - i0) ↔ i0 < j ∧ j ≤ t1 := by
      intro j
      rw [List.mem_range'_1]
      omega
    generalize tbmLoop ts logc (ts.getD i0 0) p.minClose (side : K) (logc.getD i0 0) (p.top.scale tgt)
      (p.bottom.scale (-tgt)) (List.range' (i0 + 1) ((t1 : Int).toNat - i0)) ⟨none, 0, 0, 0⟩ = res at hspec ⊢
    refine ⟨res.touch.getD t1, res.ret, _, by rw [hlab]; rfl, ?_⟩
    rcases hspec with ⟨pre, j, post, h1, h2, h3, h4, h5, h6⟩ | ⟨h1, h2, h3, h4⟩
    · left
      rw [h5, h6]
      simp only [Option.getD_some]
      have hj : i0 < j ∧ j ≤ t1 := (hmem j).mp (by rw [h1]; simp)
      refine ⟨⟨hj.1, hj.2, h2⟩, rfl, (hhit j).mp h3, ?_⟩
      intro k hk hlt hcon
      have hkm : k ∈ List.range' (i0 + 1) ((t1 : Int).toNat - i0) := (hmem k).mpr ⟨hk.1, hk.2.1⟩
      have hpw : (List.range' (i0 + 1) ((t1 : Int).toNat - i0)).Pairwise (· < ·) := List.pairwise_lt_range'
      rw [h1] at hkm hpw
      rcases List.mem_append.mp hkm with hk' | hk'
      · exact h4 k hk' hk.2.2 ((hhit k).mpr hcon)
      · rcases List.mem_cons.mp hk' with rfl | hk'
        · omega
        · have := (List.pairwise_cons.mp (List.pairwise_append.mp hpw).2.1).1 k hk'
          omega
    · right
      rw [h2]
      refine ⟨?_, rfl, ?_⟩
      · intro j hj hcon
        exact h1 j ((hmem j).mpr ⟨hj.1, hj.2.1⟩) hj.2.2 ((hhit j).mpr hcon)
      · split_ifs with hc
        · refine h4 (List.range' (i0 + 1) (t1 - i0 - 1)) t1 ?_ hc.2.2
          have : (t1 : Int).toNat - i0 = (t1 - i0 - 1) + 1 := by omega
          rw [this, List.range'_concat]
          congr 2
          omega
        · apply h3
          intro k hk hel
          have hk := (hmem k).mp hk
          apply hc
          refine ⟨h, le_refl _, ?_⟩
          have hvb2 := hvb.2.1
          have : ts.getD k 0 ≤ ts.getD t1 0 := by
            rw [List.getD_eq_getElem _ _ (by omega), List.getD_eq_getElem _ _ hvb2]
            exact sorted_get_le hs _ _ hk.2
          omega

example : tbmEvent (⟨.fin 1, .fin 1, some 100, 0, 0⟩ : TbmParams ℚ) [0, 10, 20, 200] [0, 1, 5, 9] false 0 2 1 =
    ⟨1, some 2, some 5, some 1⟩ := by decide +kernel

/-- C24: the whole call returns one such result per event, in order, or fails on inconsistent arguments. -/
theorem C24_call (log : K → K) (p : TbmParams K) (ts : List Int) (close : List K) (events : List Nat) (targets : List K)
    (side : Option (List Int)) (out : List (TbmOut K)) (h : tripleBarrier log p ts close events targets side = .ok out) :
    (∀ v, p.vertical = some v → 0 < v) ∧ 0 ≤ p.minRet ∧ ts.length = close.length ∧ events.length = targets.length ∧
    events ≠ [] ∧ out.length = events.length ∧
    ∀ k, k < events.length → ∃ s : Int, (side = none → s = 1) ∧ (∀ l, side = some l → l[k]? = some s) ∧
      out[k]? = some (tbmEvent p ts (close.map log) side.isSome (events.getD k 0) (targets.getD k 0) s) := by
  unfold tripleBarrier at h
  split_ifs at h with hv h1 h2 h3 h4
  have hv' : ∀ v, p.vertical = some v → 0 < v := by
    intro v hpv
    rw [hpv] at hv
    simpa [verticalBad] using hv
  push Not at h1 h2 h3
  refine ⟨hv', h1, h2, h3, h4, ?_⟩
  cases side with
  | none =>
    simp only [Except.ok.injEq] at h
    subst h
    refine ⟨by simp [h3], ?_⟩
    intro k hk
    refine ⟨1, fun _ => rfl, fun l hl => by simp at hl, ?_⟩
    rw [List.getElem?_eq_getElem (by simp; omega), List.getD_eq_getElem _ _ hk, List.getD_eq_getElem _ _ (h3 ▸ hk)]
    simp [List.getElem_zipWith]
  | some s =>
    simp only at h
    split_ifs at h with h5
    simp only [Except.ok.injEq] at h
    subst h
    push Not at h5
    refine ⟨by simp; omega, ?_⟩
    intro k hk
    refine ⟨s.getD k 0, fun hs => by simp at hs, ?_, ?_⟩
    · intro l hl
      cases hl
      rw [List.getElem?_eq_getElem (h5 ▸ hk), List.getD_eq_getElem _ _ (h5 ▸ hk)]
    · rw [List.getElem?_eq_getElem (by simp; omega), List.getD_eq_getElem _ _ hk, List.getD_eq_getElem _ _ (h3 ▸ hk),
        List.getD_eq_getElem _ _ (h5 ▸ hk)]
      simp [List.getElem_zipWith]

/-- C24: consistent arguments are accepted; no vertical barrier (`np.inf`) is one of the accepted choices. -/
theorem C24_accepts (log : K → K) (p : TbmParams K) (ts : List Int) (close : List K) (events : List Nat) (targets : List K)
    (side : Option (List Int)) (hv : p.vertical = none ∨ ∃ v, p.vertical = some v ∧ 0 < v) (h1 : 0 ≤ p.minRet)
    (h2 : ts.length = close.length) (h3 : events.length = targets.length) (h4 : events ≠ [])
    (h5 : ∀ l, side = some l → l.length = events.length) : ∃ out, tripleBarrier log p ts close events targets side = .ok out := by
  have hb : verticalBad p.vertical = false := by
    rcases hv with h | ⟨v, h, hpos⟩
    · rw [h]; rfl
    · rw [h]; simpa [verticalBad] using hpos
  unfold tripleBarrier
  rw [hb, if_neg (by simp), if_neg (not_lt.mpr h1), if_neg (not_not.mpr h2), if_neg (not_not.mpr h3), if_neg h4]
  cases side with
  | none => exact ⟨_, rfl⟩
  | some l => simp only; rw [if_neg (not_not.mpr (h5 l rfl).symm)]; exact ⟨_, rfl⟩

/-- Without a vertical barrier. -/
example : tripleBarrier id (⟨.fin 1, .fin 1, none, 0, 0⟩ : TbmParams ℚ) [0, 10, 20, 200] [0, 1, 5, 9] [0, 1] [2, 1]
    none = .ok [⟨1, some 2, some 5, some 1⟩, ⟨1, some 2, some 4, some 1⟩] := by decide +kernel

example : tripleBarrier id (⟨.fin 1, .fin 1, some 100, 0, 0⟩ : TbmParams ℚ) [0, 10, 20, 200] [0, 1, 5, 9] [0, 1] [2, 1]
    none = .ok [⟨1, some 2, some 5, some 1⟩, ⟨1, some 2, some 4, some 1⟩] := by decide +kernel

/-- C24 fails: an event with no bar inside its vertical window gets no touch index (the entry of `np.empty` is never
written), although `TBMLabel.compute_labels` uses it to look up the touch time. -/
theorem C24_skipped_event_undefined :
    (tbmEvent (⟨.fin 1, .fin 1, some 5, 0, 0⟩ : TbmParams ℚ) [0, 10, 20] [0, 1, 2] false 0 1 1).touch = none := by
  decide +kernel

/-- C24 fails: when the vertical window ends before the minimum holding time the reported return is 0 (label 1), although
the price fell by 7 by the reported touch bar. -/
theorem C24_short_window_return :
    (tbmEvent (⟨.fin 1, .fin 1, some 5, 100, 0⟩ : TbmParams ℚ) [0, 5, 20] [0, -7, 2] false 0 1 1) =
      ⟨1, some 1, some 0, some 0⟩ ∧ pathReturn [(0:ℚ), -7, 2] 0 1 1 = -7 := by
  decide +kernel

/-- C24: the documentation disables the lower barrier by `-np.inf`, but then the lower level is `+inf` and every path
touches it at the first closable bar, whatever its return; the working way is `+np.inf`, which is never touched (positive
targets). -/
theorem C24_minus_inf_bottom (p : TbmParams K) {ts : List Int} (hs : ts.Pairwise (· ≤ ·)) (logc : List K)
    (isMeta : Bool) {i0 : Nat} (hi : i0 < ts.length) {tgt : K} (htgt : 0 < tgt) (side : Int)
    (hv : ∀ x, p.vertical = some x → 0 < x) (hb : p.bottom = .ninf) (j : Nat)
    (hj : ∃ t1, IsVerticalBar ts i0 p.vertical t1 ∧ Closable ts i0 t1 p.minClose j)
    (hfirst : ∀ k, i0 < k → k < j → ts.getD k 0 - ts.getD i0 0 < p.minClose) :
    (tbmEvent p ts logc isMeta i0 tgt side).touch = some j := by
  obtain ⟨t1', hvb', hc⟩ := hj
  obtain ⟨t1, hvb, -, h2⟩ := C24_first_touch_partial p hs logc isMeta hi tgt side hv
  have heq : t1 = t1' := by
    have a := (hvb.2.2 t1' hvb'.2.1).mpr ((hvb'.2.2 t1' hvb'.2.1).mp (le_refl _))
    have b := (hvb'.2.2 t1 hvb.2.1).mpr ((hvb.2.2 t1 hvb.2.1).mp (le_refl _))
    omega
  subst heq
  obtain ⟨touch, r, ratio, he, h⟩ := h2 (lt_of_lt_of_le hc.1 hc.2.1)
  rw [he]
  rcases h with ⟨h3, -, h4, h5⟩ | ⟨h3, -⟩
  · rcases lt_trichotomy touch j with hlt | rfl | hgt
    · have := hfirst touch h3.1 hlt
      have := h3.2.2
      omega
    · rfl
    · exact absurd (Or.inr (by rw [hb]; exact htgt)) (h5 j hc hgt)
  · exact absurd (Or.inr (by rw [hb]; exact htgt)) (h3 j hc)

example : tbmEvent (⟨.ninf, .fin 1, some 100, 0, 0⟩ : TbmParams ℚ) [0, 10, 20, 90] [0, 1, 2, 9] false 0 4 1 =
    ⟨1, some 1, some 1, some 1⟩ ∧
  tbmEvent (⟨.pinf, .fin 1, some 100, 0, 0⟩ : TbmParams ℚ) [0, 10, 20, 90] [0, 1, 2, 3] false 0 4 1 =
    ⟨1, some 3, some 3, some (3/4)⟩ := by decide +kernel

/-! ## C25 -/

theorem tbmLoop_congr (ts ts' : List Int) (lc lc' : List K) (t0 mc : Int) (side base : K) (ub lb : Ext K)
    (js : List Nat) (h : ∀ j ∈ js, ts.getD j 0 = ts'.getD j 0 ∧ lc.getD j 0 = lc'.getD j 0) (a : TbmAcc K) :
    tbmLoop ts lc t0 mc side base ub lb js a = tbmLoop ts' lc' t0 mc side base ub lb js a := by
  induction js generalizing a with
  | nil => rfl
  | cons j js ih =>
    simp only [tbmLoop]
    rw [(h j List.mem_cons_self).1, (h j List.mem_cons_self).2]
    simp only [ih (fun k hk => h k (List.mem_cons_of_mem _ hk))]

theorem searchRight_append_gt (a b : List Int) (v : Int) (h : ∀ x ∈ b, v < x) :
    searchRight (a ++ b) v = searchRight a v := by
  unfold searchRight
  induction a with
  | nil =>
    cases b with
    | nil => rfl
    | cons x b =>
      have := h x List.mem_cons_self
      simp [List.takeWhile, not_le.mpr this]
  | cons y a ih =>
    simp only [List.cons_append, List.takeWhile]
    split
    · simp only [List.length_cons, ih]
    · rfl

theorem getD_append_left {α : Type} (a b : List α) (d : α) (j : Nat) (hj : j < a.length) :
    (a ++ b).getD j d = a.getD j d := by
  rw [List.getD_eq_getElem _ _ hj, List.getD_eq_getElem _ _ (by simp; omega), List.getElem_append_left hj]

/-- Dropping everything after the vertical barrier does not change the result. -/
theorem tbmEvent_append (p : TbmParams K) (pre fut : List Int) (lpre lfut : List K) (hlen : pre.length = lpre.length)
    (isMeta : Bool) (i0 : Nat) (hi : i0 < pre.length) (tgt : K) (side : Int) (v : Int) (hv : p.vertical = some v)
    (hf : ∀ t ∈ fut, pre.getD i0 0 + v < t) :
    tbmEvent p (pre ++ fut) (lpre ++ lfut) isMeta i0 tgt side = tbmEvent p pre lpre isMeta i0 tgt side := by
  have h0 : (pre ++ fut).getD i0 0 = pre.getD i0 0 := getD_append_left _ _ _ _ hi
  have hb : (lpre ++ lfut).getD i0 0 = lpre.getD i0 0 := getD_append_left _ _ _ _ (hlen ▸ hi)
  have ht : verticalIdx (pre ++ fut) (pre.getD i0 0) p.vertical = verticalIdx pre (pre.getD i0 0) p.vertical := by
    rw [hv]
    simp only [verticalIdx]
    rw [searchRight_append_gt _ _ _ hf]
  unfold tbmEvent
  simp only [h0, hb, ht]
  split_ifs with h
  · rfl
  · have hle : verticalIdx pre (pre.getD i0 0) p.vertical ≤ (pre.length : Int) - 1 := by
      rw [hv]
      simp only [verticalIdx]
      have := searchRight_le_length pre (pre.getD i0 0 + v)
      omega
    rw [tbmLoop_congr (pre ++ fut) pre (lpre ++ lfut) lpre]
    intro j hj
    rw [List.mem_range'_1] at hj
    constructor
    · exact getD_append_left _ _ _ _ (by omega)
    · exact getD_append_left _ _ _ _ (by omega)

/-- C25: two histories that share the bars up to the vertical barrier time give the event the same label, touch index,
return and ratio, whatever comes later in either of them. -/
theorem C25_no_look_ahead (p : TbmParams K) (pre fut fut' : List Int) (lpre lfut lfut' : List K)
    (hlen : pre.length = lpre.length) (isMeta : Bool) (i0 : Nat) (hi : i0 < pre.length) (tgt : K) (side : Int) (v : Int)
    (hv : p.vertical = some v) (hf : ∀ t ∈ fut, pre.getD i0 0 + v < t) (hf' : ∀ t ∈ fut', pre.getD i0 0 + v < t) :
    tbmEvent p (pre ++ fut) (lpre ++ lfut) isMeta i0 tgt side =
      tbmEvent p (pre ++ fut') (lpre ++ lfut') isMeta i0 tgt side := by
  rw [tbmEvent_append p pre fut lpre lfut hlen isMeta i0 hi tgt side v hv hf,
    tbmEvent_append p pre fut' lpre lfut' hlen isMeta i0 hi tgt side v hv hf']

example : (∀ t ∈ [(30 : Int)], [(0 : Int), 10, 20].getD 0 0 + 20 < t) ∧
    tbmEvent (⟨.fin 1, .fin 1, some 20, 0, 0⟩ : TbmParams ℚ) ([0, 10, 20] ++ [30]) ([0, 1, 2] ++ [50]) false 0 4 1 =
      ⟨1, some 2, some 2, some (1/2)⟩ := by decide +kernel

/-- C25: bars before the event are irrelevant too: changing their prices changes nothing. -/
theorem C25_no_look_back (p : TbmParams K) (ts : List Int) (lc lc' : List K) (isMeta : Bool) (i0 : Nat) (tgt : K)
    (side : Int) (h : ∀ j, i0 ≤ j → lc.getD j 0 = lc'.getD j 0) :
    tbmEvent p ts lc isMeta i0 tgt side = tbmEvent p ts lc' isMeta i0 tgt side := by
  unfold tbmEvent
  simp only [h i0 (le_refl _)]
  split_ifs with h1
  · rfl
  · rw [tbmLoop_congr ts ts lc lc']
    intro j hj
    rw [List.mem_range'_1] at hj
    exact ⟨rfl, h j (by omega)⟩

example : tbmEvent (⟨.fin 1, .fin 1, some 20, 0, 0⟩ : TbmParams ℚ) [0, 10, 20] [5, 1, 2] false 1 4 1 =
    tbmEvent (⟨.fin 1, .fin 1, some 20, 0, 0⟩ : TbmParams ℚ) [0, 10, 20] [-9, 1, 2] false 1 4 1 := by decide +kernel

/-! ## C26 -/

/-- Bounds and meaning of the progress maxima. -/
theorem tbmLoop_max (ts : List Int) (logc : List K) (t0 mc : Int) (side base : K) (ub lb : Ext K) (u l : K)
    (hu : ub = .fin u) (hl : lb = .fin l) (hu0 : 0 < u) (hl0 : l < 0) (js : List Nat) :
    ∀ a : TbmAcc K, a.touch = none → 0 ≤ a.maxU → 0 ≤ a.maxL → a.maxU < 1 → a.maxL < 1 →
    let res := tbmLoop ts logc t0 mc side base ub lb js a
    0 ≤ res.maxU ∧ 0 ≤ res.maxL ∧ (res.touch = none → res.maxU < 1 ∧ res.maxL < 1) ∧
      (∀ j, res.touch = some j → (0 < res.ret ∧ 1 ≤ res.maxU ∧ res.maxL < 1) ∨ (res.ret < 0 ∧ 1 ≤ res.maxL ∧ res.maxU < 1)) := by
  have hvu : ub.valid = some u := by rw [hu]; simp [Ext.valid, hu0.ne']
  have hvl : lb.valid = some l := by rw [hl]; simp [Ext.valid, hl0.ne]
  induction js with
  | nil =>
    intro a ha h1 h2 h3 h4
    refine ⟨h1, h2, fun _ => ⟨h3, h4⟩, ?_⟩
    intro j hj
    simp only [tbmLoop, ha] at hj
    cases hj
  | cons j js ih =>
    intro a ha h1 h2 h3 h4
    simp only [tbmLoop]
    by_cases he : ts.getD j 0 - t0 < mc
    · rw [if_pos he]
      exact ih a ha h1 h2 h3 h4
    · rw [if_neg he]
      generalize hr : (logc.getD j 0 - base) * side = r
      have hret := (tbmProgress_touch ub lb r { a with ret := r }).2
      have htch := (tbmProgress_touch ub lb r { a with ret := r }).1
      have hU : (tbmProgress ub lb r { a with ret := r }).maxU = if 0 < r then max a.maxU (r / u) else a.maxU := by
        unfold tbmProgress
        by_cases h : 0 < r
        · simp [h, hvu]
        · by_cases h' : r < 0 <;> simp [h, h', hvl]
      have hL : (tbmProgress ub lb r { a with ret := r }).maxL = if r < 0 then max a.maxL (r / l) else a.maxL := by
        unfold tbmProgress
        by_cases h : 0 < r
        · simp [h, hvu, not_lt.mpr h.le]
        · by_cases h' : r < 0 <;> simp [h, h', hvl]
      generalize tbmProgress ub lb r { a with ret := r } = b at hret htch hU hL ⊢
      simp only at hret htch
      have hbU : 0 ≤ b.maxU := by rw [hU]; split_ifs <;> simp [h1]
      have hbL : 0 ≤ b.maxL := by rw [hL]; split_ifs <;> simp [h2]
      by_cases hh : (ub.leFin r || lb.geFin r) = true
      · rw [if_pos hh]
        simp only
        refine ⟨hbU, hbL, fun h => by simp at h, ?_⟩
        intro k _
        rw [hret]
        rw [Bool.or_eq_true, hu, hl] at hh
        simp only [Ext.leFin, Ext.geFin, decide_eq_true_eq] at hh
        rcases hh with hh | hh
        · left
          have hr0 : 0 < r := lt_of_lt_of_le hu0 hh
          refine ⟨hr0, ?_, ?_⟩
          · rw [hU, if_pos hr0]
            exact le_max_of_le_right ((one_le_div hu0).mpr hh)
          · rw [hL, if_neg (not_lt.mpr hr0.le)]; exact h4
        · right
          have hr0 : r < 0 := lt_of_le_of_lt hh hl0
          refine ⟨hr0, ?_, ?_⟩
          · rw [hL, if_pos hr0]
            refine le_max_of_le_right ?_
            rw [le_div_iff_of_neg hl0]; linarith
          · rw [hU, if_neg (not_lt.mpr hr0.le)]; exact h3
      · rw [if_neg hh]
        have hh' : ¬ u ≤ r ∧ ¬ r ≤ l := by
          rw [Bool.or_eq_true, hu, hl] at hh
          simpa [Ext.leFin, Ext.geFin] using hh
        refine ih b (htch.trans ha) hbU hbL ?_ ?_
        · rw [hU]
          split_ifs
          · exact max_lt h3 ((div_lt_one hu0).mpr (not_le.mp hh'.1))
          · exact h3
        · rw [hL]
          split_ifs
          · refine max_lt h4 ?_
            rw [div_lt_iff_of_neg hl0]
            have := not_le.mp hh'.2
            linarith
          · exact h4

/-- C26: for finite positive barriers the ratio lies in `[0,1]`; it is 1 when a horizontal barrier is hit before the
vertical-barrier bar, and less than 1 when no horizontal barrier is hit.  Missing: a hit exactly at the vertical-barrier
bar, where only `ratio ≥ 1/2` is guaranteed (next theorem). -/
theorem C26_ratio_partial (p : TbmParams K) {ts : List Int} (hs : ts.Pairwise (· ≤ ·)) (logc : List K)
    (isMeta : Bool) {i0 : Nat} (hi : i0 < ts.length) {tgt : K} (htgt : 0 < tgt) (side : Int)
    (hv : ∀ x, p.vertical = some x → 0 < x) {b t : K} (hb : p.bottom = .fin b) (ht : p.top = .fin t) (hb0 : 0 < b)
    (ht0 : 0 < t) {t1 : Nat} (hvb : IsVerticalBar ts i0 p.vertical t1) (h01 : i0 < t1) :
    ∃ ratio, (tbmEvent p ts logc isMeta i0 tgt side).ratio = some ratio ∧ 0 ≤ ratio ∧ ratio ≤ 1 ∧
      (∀ touch r, FirstTouch p ts logc i0 t1 tgt side touch r → touch < t1 → ratio = 1) ∧
      (∀ touch r, FirstTouch p ts logc i0 t1 tgt side touch r → 1 / 2 < ratio) ∧
      (NoTouch p ts logc i0 t1 tgt side → ratio < 1) := by
  obtain ⟨t1', he, hvb'⟩ := verticalIdx_spec hs hi p.vertical hv
  have heq : t1' = t1 := by
    have a := (hvb.2.2 t1' hvb'.2.1).mpr ((hvb'.2.2 t1' hvb'.2.1).mp (le_refl _))
    have b := (hvb'.2.2 t1 hvb.2.1).mpr ((hvb.2.2 t1 hvb.2.1).mp (le_refl _))
    omega
  subst heq
  simp only [tbmEvent, he]
  rw [if_neg (by omega)]
  have hub : p.top.scale tgt = .fin (tgt * t) := by rw [ht]; rfl
  have hlb : p.bottom.scale (-tgt) = .fin (-tgt * b) := by rw [hb]; rfl
  have hu0 : 0 < tgt * t := mul_pos htgt ht0
  have hl0 : -tgt * b < 0 := by nlinarith [mul_pos htgt hb0]
  have hmax := tbmLoop_max ts logc (ts.getD i0 0) p.minClose (side : K) (logc.getD i0 0) _ _ _ _ hub hlb hu0 hl0
    (List.range' (i0 + 1) ((t1' : Int).toNat - i0)) ⟨none, 0, 0, 0⟩ rfl (le_refl _) (le_refl _) zero_lt_one zero_lt_one
  have hspec := tbmLoop_spec ts logc (ts.getD i0 0) p.minClose (side : K) (logc.getD i0 0) (p.top.scale tgt)
      (p.bottom.scale (-tgt)) (List.range' (i0 + 1) ((t1' : Int).toNat - i0)) ⟨none, 0, 0, 0⟩ rfl
  simp only at hmax hspec
  have hhit : ∀ j, ((p.top.scale tgt).leFin ((logc.getD j 0 - logc.getD i0 0) * (side : K)) ||
      (p.bottom.scale (-tgt)).geFin ((logc.getD j 0 - logc.getD i0 0) * (side : K))) = true ↔
      (UpperHit p.top tgt (pathReturn logc i0 side j) ∨ LowerHit p.bottom tgt (pathReturn logc i0 side j)) := by
    intro j
    rw [Bool.or_eq_true, leFin_scale, geFin_scale]
    rfl
  have hmem : ∀ j, j ∈ List.range' (i0 + 1) ((t1' : Int).toNat - i0) ↔ i0 < j ∧ j ≤ t1' := by
    intro j
    rw [List.mem_range'_1]
    omega
  generalize tbmLoop ts logc (ts.getD i0 0) p.minClose (side : K) (logc.getD i0 0) (p.top.scale tgt)
    (p.bottom.scale (-tgt)) (List.range' (i0 + 1) ((t1' : Int).toNat - i0)) ⟨none, 0, 0, 0⟩ = res at hmax hspec ⊢
  have hvu : (p.top.scale tgt).valid.isSome = true := by rw [hub]; simp [Ext.valid, htgt.ne', ht0.ne']
  have hvl : (p.bottom.scale (-tgt)).valid.isSome = true := by rw [hlb]; simp [Ext.valid, htgt.ne', hb0.ne']
  simp only [tbmRatio, hvu, hvl, if_true, Int.toNat_natCast]
  obtain ⟨hU, hL, hno, hyes⟩ := hmax
  have key : ∀ x y : K, 0 ≤ x → 0 ≤ y → 0 ≤ min (x / (1 + y)) 1 ∧ min (x / (1 + y)) 1 ≤ 1 ∧
      (x < 1 → min (x / (1 + y)) 1 < 1) ∧ (1 ≤ x → y < 1 → 1 / 2 < min (x / (1 + y)) 1) := by
    intro x y hx hy
    have hy1 : 0 < 1 + y := by linarith
    refine ⟨le_min (div_nonneg hx hy1.le) zero_le_one, min_le_right _ _, ?_, ?_⟩
    · intro h
      refine min_lt_of_left_lt ?_
      rw [div_lt_one hy1]; linarith
    · intro h1 h2
      refine lt_min ?_ (by norm_num)
      rw [lt_div_iff₀ hy1]; linarith
  have hno' : NoTouch p ts logc i0 t1' tgt side → res.touch = none := by
    intro hn
    rcases hspec with ⟨pre, j, post, h1, h2, h3, h4, h5, h6⟩ | ⟨-, h2, -⟩
    · have hj := (hmem j).mp (by rw [h1]; simp)
      exact absurd ((hhit j).mp h3) (hn j ⟨hj.1, hj.2, h2⟩)
    · exact h2
  have hyes' : ∀ touch r, FirstTouch p ts logc i0 t1' tgt side touch r → res.touch = some touch := by
    rintro touch r ⟨h1, rfl, h3, h4⟩
    rcases hspec with ⟨pre, j, post, e1, e2, e3, e4, e5, e6⟩ | ⟨e1, -⟩
    · have hj := (hmem j).mp (by rw [e1]; simp)
      rcases lt_trichotomy j touch with hlt | rfl | hgt
      · exact absurd ((hhit j).mp e3) (h4 j ⟨hj.1, hj.2, e2⟩ hlt)
      · exact e5
      · have hm : touch ∈ List.range' (i0 + 1) ((t1' : Int).toNat - i0) := (hmem _).mpr ⟨h1.1, h1.2.1⟩
        have hpw : (List.range' (i0 + 1) ((t1' : Int).toNat - i0)).Pairwise (· < ·) := List.pairwise_lt_range'
        rw [e1] at hm hpw
        rcases List.mem_append.mp hm with hm | hm
        · exact absurd ((hhit _).mpr h3) (e4 _ hm h1.2.2)
        · rcases List.mem_cons.mp hm with rfl | hm
          · omega
          · have := (List.pairwise_cons.mp (List.pairwise_append.mp hpw).2.1).1 _ hm
            omega
    · exact absurd ((hhit _).mpr h3) (e1 _ ((hmem _).mpr ⟨h1.1, h1.2.1⟩) h1.2.2)
  by_cases hc : res.touch.getD t1' = t1'
  · rw [if_pos hc]
    by_cases hr : 0 < res.ret
    · rw [if_pos hr]
      obtain ⟨k1, k2, k3, k4⟩ := key _ _ hU hL
      refine ⟨_, rfl, k1, k2, ?_, ?_, fun h => k3 (hno (hno' h)).1⟩
      · intro touch r h hlt
        rw [hyes' touch r h] at hc
        simp only [Option.getD_some] at hc
        omega
      · intro touch r h
        rcases hyes touch (hyes' touch r h) with ⟨_, a, b⟩ | ⟨a, _⟩
        · exact k4 a b
        · linarith
    · rw [if_neg hr]
      obtain ⟨k1, k2, k3, k4⟩ := key _ _ hL hU
      refine ⟨_, rfl, k1, k2, ?_, ?_, fun h => k3 (hno (hno' h)).2⟩
      · intro touch r h hlt
        rw [hyes' touch r h] at hc
        simp only [Option.getD_some] at hc
        omega
      · intro touch r h
        rcases hyes touch (hyes' touch r h) with ⟨a, _⟩ | ⟨_, a, b⟩
        · exact absurd a hr
        · exact k4 a b
  · rw [if_neg hc]
    refine ⟨1, rfl, zero_le_one, le_refl _, fun _ _ _ _ => rfl, fun _ _ _ => by norm_num, ?_⟩
    intro h
    rw [hno' h] at hc
    exact absurd rfl hc

example : (tbmEvent (⟨.fin 1, .fin 1, some 100, 0, 0⟩ : TbmParams ℚ) [0, 10, 20] [0, 1, 2] false 0 4 1).ratio =
    some (1/2) := by decide +kernel

/-- The progress maxima after a path whose bars, except possibly the last, hit no barrier. -/
theorem tbmLoop_maxima (ts : List Int) (logc : List K) (t0 mc : Int) (side base : K) (ub lb : Ext K) (u l : K)
    (hu : ub = .fin u) (hl : lb = .fin l) (hu0 : 0 < u) (hl0 : l < 0) (js : List Nat) :
    ∀ a : TbmAcc K,
    let res := tbmLoop ts logc t0 mc side base ub lb js a
    let el := fun j => mc ≤ ts.getD j 0 - t0
    let rj := fun j => (logc.getD j 0 - base) * side
    (∀ k ∈ js.dropLast, el k → ¬ (ub.leFin (rj k) || lb.geFin (rj k)) = true) →
    (a.maxU ≤ res.maxU ∧ (∀ k ∈ js, el k → 0 < rj k → rj k / u ≤ res.maxU) ∧
      (res.maxU = a.maxU ∨ ∃ k ∈ js, el k ∧ 0 < rj k ∧ res.maxU = rj k / u)) ∧
    (a.maxL ≤ res.maxL ∧ (∀ k ∈ js, el k → rj k < 0 → rj k / l ≤ res.maxL) ∧
      (res.maxL = a.maxL ∨ ∃ k ∈ js, el k ∧ rj k < 0 ∧ res.maxL = rj k / l)) := by
  have hvu : ub.valid = some u := by rw [hu]; simp [Ext.valid, hu0.ne']
  have hvl : lb.valid = some l := by rw [hl]; simp [Ext.valid, hl0.ne]
  induction js with
  | nil => intro a; simp [tbmLoop]
  | cons j js ih =>
    intro a
    simp only [tbmLoop]
    intro hno
    have hno' : ∀ k ∈ js.dropLast, mc ≤ ts.getD k 0 - t0 →
        ¬ (ub.leFin ((logc.getD k 0 - base) * side) || lb.geFin ((logc.getD k 0 - base) * side)) = true := by
      intro k hk
      apply hno k
      cases js with
      | nil => simp at hk
      | cons x js => rw [List.dropLast_cons_of_ne_nil (by simp)]; exact List.mem_cons_of_mem _ hk
    by_cases he : ts.getD j 0 - t0 < mc
    · rw [if_pos he]
      obtain ⟨⟨u1, u2, u3⟩, ⟨l1, l2, l3⟩⟩ := ih a hno'
      refine ⟨⟨u1, ?_, ?_⟩, ⟨l1, ?_, ?_⟩⟩
      · intro k hk hel
        rcases List.mem_cons.mp hk with rfl | hk
        · omega
        · exact u2 k hk hel
      · rcases u3 with h | ⟨k, hk, h⟩
        · exact Or.inl h
        · exact Or.inr ⟨k, List.mem_cons_of_mem _ hk, h⟩
      · intro k hk hel
        rcases List.mem_cons.mp hk with rfl | hk
        · omega
        · exact l2 k hk hel
      · rcases l3 with h | ⟨k, hk, h⟩
        · exact Or.inl h
        · exact Or.inr ⟨k, List.mem_cons_of_mem _ hk, h⟩
    · rw [if_neg he]
      have hel : mc ≤ ts.getD j 0 - t0 := by omega
      have hU : (tbmProgress ub lb ((logc.getD j 0 - base) * side) { a with ret := (logc.getD j 0 - base) * side }).maxU =
          if 0 < (logc.getD j 0 - base) * side then max a.maxU ((logc.getD j 0 - base) * side / u) else a.maxU := by
        generalize (logc.getD j 0 - base) * side = r
        unfold tbmProgress
        by_cases h : 0 < r
        · simp [h, hvu]
        · by_cases h' : r < 0 <;> simp [h, h', hvl]
      have hL : (tbmProgress ub lb ((logc.getD j 0 - base) * side) { a with ret := (logc.getD j 0 - base) * side }).maxL =
          if (logc.getD j 0 - base) * side < 0 then max a.maxL ((logc.getD j 0 - base) * side / l) else a.maxL := by
        generalize (logc.getD j 0 - base) * side = r
        unfold tbmProgress
        by_cases h : 0 < r
        · simp [h, hvu, not_lt.mpr h.le]
        · by_cases h' : r < 0 <;> simp [h, h', hvl]
      generalize tbmProgress ub lb ((logc.getD j 0 - base) * side) { a with ret := (logc.getD j 0 - base) * side } = b
        at hU hL ⊢
      have bU : a.maxU ≤ b.maxU ∧ (0 < (logc.getD j 0 - base) * side → (logc.getD j 0 - base) * side / u ≤ b.maxU) ∧
          (b.maxU = a.maxU ∨ 0 < (logc.getD j 0 - base) * side ∧ b.maxU = (logc.getD j 0 - base) * side / u) := by
        rw [hU]
        by_cases h : 0 < (logc.getD j 0 - base) * side
        · rw [if_pos h]
          refine ⟨le_max_left _ _, fun _ => le_max_right _ _, ?_⟩
          rcases max_choice a.maxU ((logc.getD j 0 - base) * side / u) with e | e
          · exact Or.inl e
          · exact Or.inr ⟨h, e⟩
        · rw [if_neg h]; exact ⟨le_refl _, fun h' => absurd h' h, Or.inl rfl⟩
      have bL : a.maxL ≤ b.maxL ∧ ((logc.getD j 0 - base) * side < 0 → (logc.getD j 0 - base) * side / l ≤ b.maxL) ∧
          (b.maxL = a.maxL ∨ (logc.getD j 0 - base) * side < 0 ∧ b.maxL = (logc.getD j 0 - base) * side / l) := by
        rw [hL]
        by_cases h : (logc.getD j 0 - base) * side < 0
        · rw [if_pos h]
          refine ⟨le_max_left _ _, fun _ => le_max_right _ _, ?_⟩
          rcases max_choice a.maxL ((logc.getD j 0 - base) * side / l) with e | e
          · exact Or.inl e
          · exact Or.inr ⟨h, e⟩
        · rw [if_neg h]; exact ⟨le_refl _, fun h' => absurd h' h, Or.inl rfl⟩
      by_cases hh : (ub.leFin ((logc.getD j 0 - base) * side) || lb.geFin ((logc.getD j 0 - base) * side)) = true
      · -- the last bar
        have hlast : js = [] := by
          by_contra hc
          exact hno j (by rw [List.dropLast_cons_of_ne_nil hc]; simp) hel hh
        subst hlast
        rw [if_pos hh]
        refine ⟨⟨bU.1, ?_, ?_⟩, ⟨bL.1, ?_, ?_⟩⟩
        · intro k hk _
          obtain rfl := List.mem_singleton.mp hk
          exact bU.2.1
        · rcases bU.2.2 with h | h
          · exact Or.inl h
          · exact Or.inr ⟨j, by simp, hel, h⟩
        · intro k hk _
          obtain rfl := List.mem_singleton.mp hk
          exact bL.2.1
        · rcases bL.2.2 with h | h
          · exact Or.inl h
          · exact Or.inr ⟨j, by simp, hel, h⟩
      · rw [if_neg hh]
        obtain ⟨⟨u1, u2, u3⟩, ⟨l1, l2, l3⟩⟩ := ih b hno'
        refine ⟨⟨bU.1.trans u1, ?_, ?_⟩, ⟨bL.1.trans l1, ?_, ?_⟩⟩
        · intro k hk hek hrk
          rcases List.mem_cons.mp hk with rfl | hk
          · exact (bU.2.1 hrk).trans u1
          · exact u2 k hk hek hrk
        · rcases u3 with h | ⟨k, hk, h⟩
          · rcases bU.2.2 with h' | h'
            · exact Or.inl (h.trans h')
            · exact Or.inr ⟨j, by simp, hel, h'.1, h.trans h'.2⟩
          · exact Or.inr ⟨k, List.mem_cons_of_mem _ hk, h⟩
        · intro k hk hek hrk
          rcases List.mem_cons.mp hk with rfl | hk
          · exact (bL.2.1 hrk).trans l1
          · exact l2 k hk hek hrk
        · rcases l3 with h | ⟨k, hk, h⟩
          · rcases bL.2.2 with h' | h'
            · exact Or.inl (h.trans h')
            · exact Or.inr ⟨j, by simp, hel, h'.1, h.trans h'.2⟩
          · exact Or.inr ⟨k, List.mem_cons_of_mem _ hk, h⟩

/-- **C26 (exactly).** The ratio when no horizontal barrier is hit before the vertical bar.  Let `U` be the largest
progress towards the upper barrier over the closable bars (return divided by barrier, 0 if no return is positive), `L`
the largest progress towards the lower one, and `r` the reported return.  The ratio is `U / (1 + L)` for a positive
return and `L / (1 + U)` otherwise, cut at 1.  Together with the value 1 for earlier hits this is the ratio of every
event with finite positive barriers. -/
theorem C26_ratio_exact (p : TbmParams K) {ts : List Int} (hs : ts.Pairwise (· ≤ ·)) (logc : List K)
    (isMeta : Bool) {i0 : Nat} (hi : i0 < ts.length) {tgt : K} (htgt : 0 < tgt) (side : Int)
    (hv : ∀ x, p.vertical = some x → 0 < x) {b t : K} (hb : p.bottom = .fin b) (ht : p.top = .fin t) (hb0 : 0 < b)
    (ht0 : 0 < t) {t1 : Nat} (hvb : IsVerticalBar ts i0 p.vertical t1) (h01 : i0 < t1)
    (hno : ∀ j, Closable ts i0 t1 p.minClose j → j < t1 →
      ¬ (UpperHit p.top tgt (pathReturn logc i0 side j) ∨ LowerHit p.bottom tgt (pathReturn logc i0 side j))) :
    ∃ U L r, IsMaxFrom0 (fun j => Closable ts i0 t1 p.minClose j ∧ 0 < pathReturn logc i0 side j)
        (fun j => pathReturn logc i0 side j / (t * tgt)) U ∧
      IsMaxFrom0 (fun j => Closable ts i0 t1 p.minClose j ∧ pathReturn logc i0 side j < 0)
        (fun j => -pathReturn logc i0 side j / (b * tgt)) L ∧
      (tbmEvent p ts logc isMeta i0 tgt side).ret = some r ∧
      (tbmEvent p ts logc isMeta i0 tgt side).ratio = some (min (if 0 < r then U / (1 + L) else L / (1 + U)) 1) := by
  obtain ⟨t1', he, hvb'⟩ := verticalIdx_spec hs hi p.vertical hv
  have heq : t1' = t1 := by
    have a := (hvb.2.2 t1' hvb'.2.1).mpr ((hvb'.2.2 t1' hvb'.2.1).mp (le_refl _))
    have b := (hvb'.2.2 t1 hvb.2.1).mpr ((hvb.2.2 t1 hvb.2.1).mp (le_refl _))
    omega
  subst heq
  simp only [tbmEvent, he]
  rw [if_neg (by omega)]
  have hub : p.top.scale tgt = .fin (tgt * t) := by rw [ht]; rfl
  have hlb : p.bottom.scale (-tgt) = .fin (-tgt * b) := by rw [hb]; rfl
  have hu0 : 0 < tgt * t := mul_pos htgt ht0
  have hl0 : -tgt * b < 0 := by nlinarith [mul_pos htgt hb0]
  have hhit : ∀ j, ((p.top.scale tgt).leFin ((logc.getD j 0 - logc.getD i0 0) * (side : K)) ||
      (p.bottom.scale (-tgt)).geFin ((logc.getD j 0 - logc.getD i0 0) * (side : K))) = true ↔
      (UpperHit p.top tgt (pathReturn logc i0 side j) ∨ LowerHit p.bottom tgt (pathReturn logc i0 side j)) := by
    intro j
    rw [Bool.or_eq_true, leFin_scale, geFin_scale]
    rfl
  have hmem : ∀ j, j ∈ List.range' (i0 + 1) ((t1' : Int).toNat - i0) ↔ i0 < j ∧ j ≤ t1' := by
    intro j
    rw [List.mem_range'_1]
    omega
  have hdl : ∀ j, j ∈ (List.range' (i0 + 1) ((t1' : Int).toNat - i0)).dropLast → i0 < j ∧ j < t1' := by
    intro j hj
    rw [Int.toNat_natCast, show t1' - i0 = (t1' - i0 - 1) + 1 by omega, List.range'_concat, List.dropLast_concat,
      List.mem_range'_1] at hj
    omega
  have hmax := tbmLoop_maxima ts logc (ts.getD i0 0) p.minClose (side : K) (logc.getD i0 0) _ _ _ _ hub hlb hu0 hl0
    (List.range' (i0 + 1) ((t1' : Int).toNat - i0)) ⟨none, 0, 0, 0⟩ (by
      intro k hk hel hh
      obtain ⟨h1, h2⟩ := hdl k hk
      exact hno k ⟨h1, by omega, hel⟩ h2 ((hhit k).mp hh))
  have hspec := tbmLoop_spec ts logc (ts.getD i0 0) p.minClose (side : K) (logc.getD i0 0) (p.top.scale tgt)
      (p.bottom.scale (-tgt)) (List.range' (i0 + 1) ((t1' : Int).toNat - i0)) ⟨none, 0, 0, 0⟩ rfl
  simp only at hmax hspec
  have hvu : (p.top.scale tgt).valid.isSome = true := by rw [hub]; simp [Ext.valid, htgt.ne', ht0.ne']
  have hvl : (p.bottom.scale (-tgt)).valid.isSome = true := by rw [hlb]; simp [Ext.valid, htgt.ne', hb0.ne']
  generalize tbmLoop ts logc (ts.getD i0 0) p.minClose (side : K) (logc.getD i0 0) (p.top.scale tgt)
    (p.bottom.scale (-tgt)) (List.range' (i0 + 1) ((t1' : Int).toNat - i0)) ⟨none, 0, 0, 0⟩ = res at hmax hspec ⊢
  have htouch : res.touch.getD t1' = t1' := by
    rcases hspec with ⟨pre, j, post, e1, e2, e3, e4, e5, e6⟩ | ⟨-, e, -⟩
    · rw [e5, Option.getD_some]
      have hj := (hmem j).mp (by rw [e1]; simp)
      by_contra hc
      exact hno j ⟨hj.1, hj.2, e2⟩ (by omega) ((hhit j).mp e3)
    · rw [e]; rfl
  obtain ⟨⟨u1, u2, u3⟩, ⟨l1, l2, l3⟩⟩ := hmax
  refine ⟨res.maxU, res.maxL, res.ret, ⟨u1, ?_, ?_⟩, ⟨l1, ?_, ?_⟩, rfl, ?_⟩
  · rintro j ⟨⟨h1, h2, h3⟩, h4⟩
    rw [mul_comm t tgt]
    exact u2 j ((hmem j).mpr ⟨h1, h2⟩) h3 h4
  · rcases u3 with h | ⟨k, hk, h3, h4, h5⟩
    · exact Or.inl h
    · obtain ⟨h1, h2⟩ := (hmem k).mp hk
      exact Or.inr ⟨k, ⟨⟨h1, h2, h3⟩, h4⟩, by rw [mul_comm t tgt]; exact h5⟩
  · rintro j ⟨⟨h1, h2, h3⟩, h4⟩
    have := l2 j ((hmem j).mpr ⟨h1, h2⟩) h3 h4
    rwa [neg_mul, div_neg, ← neg_div, mul_comm tgt b] at this
  · rcases l3 with h | ⟨k, hk, h3, h4, h5⟩
    · exact Or.inl h
    · obtain ⟨h1, h2⟩ := (hmem k).mp hk
      refine Or.inr ⟨k, ⟨⟨h1, h2, h3⟩, h4⟩, ?_⟩
      rw [neg_mul, div_neg, ← neg_div, mul_comm tgt b] at h5
      exact h5
  · simp only [tbmRatio, hvu, hvl, if_true, Int.toNat_natCast]
    rw [if_pos htouch]
    split_ifs <;> rfl

/- Non-vacuity: half-way up, then a quarter down; the vertical bar is reached with a negative return. -/
example : (tbmEvent (⟨.fin 1, .fin 1, some 100, 0, 0⟩ : TbmParams ℚ) [0, 10, 20] [0, 2, -1] false 0 4 1).ratio =
    some (min ((1/4) / (1 + 1/2)) 1) := by decide +kernel

/-- C26 fails: the upper barrier is hit exactly at the bar of the vertical barrier, yet the ratio is 2/3. -/
theorem C26_touch_at_vertical :
    FirstTouch (⟨.fin 1, .fin 1, some 20, 0, 0⟩ : TbmParams ℚ) [0, 10, 20] [0, -1, 2] 0 2 2 1 2 2 ∧
    (tbmEvent (⟨.fin 1, .fin 1, some 20, 0, 0⟩ : TbmParams ℚ) [0, 10, 20] [0, -1, 2] false 0 2 1).ratio = some (2/3) := by
  constructor
  · refine ⟨⟨by decide, by decide, by decide⟩, by decide +kernel, Or.inl (by show (2:ℚ) * 1 ≤ 2; norm_num), ?_⟩
    rintro j ⟨h1, h2, -⟩ h3
    obtain rfl : j = 1 := by omega
    rw [show pathReturn [(0:ℚ), -1, 2] 0 1 1 = -1 by decide +kernel]
    simp only [UpperHit, LowerHit]
    norm_num
  · decide +kernel

end FinML

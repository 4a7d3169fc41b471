/-
C40: point of control and value area.
-/
import Verif.Model.VolumeProfile
import Verif.Props.Buckets
import Mathlib.Algebra.BigOperators.Group.List.Lemmas

set_option linter.unusedSectionVars false

namespace FinML

variable {K : Type} [Field K] [LinearOrder K] [IsStrictOrderedRing K]

/-! ### Specification -/

/-- Volume of the levels with index `lo … hi`. -/
def volIn (vols : List K) (lo hi : Nat) : K := ((vols.take (hi + 1)).drop lo).sum

/-- Greedy extension of an index interval by up to two levels: towards the side with the larger volume of its next
two levels, both sides on a tie, only the side that exists when the other one is exhausted. -/
def greedyNext (vols : List K) (I : Nat × Nat) : Nat × Nat :=
  let lo := I.1
  let hi := I.2
  let U := ((vols.take (hi + 3)).drop (hi + 1)).sum
  let D := ((vols.take lo).drop (lo - 2)).sum
  (if 0 < lo ∧ (D ≥ U ∨ hi + 1 = vols.length) then lo - 2 else lo,
   if hi + 1 < vols.length ∧ (U ≥ D ∨ lo = 0) then min (hi + 2) (vols.length - 1) else hi)

/-! ### argmax -/

theorem argMaxFrom_spec (l : List K) (m : K) (best i : Nat) (xs : List K) (pre : List K) (hl : l = pre ++ xs)
    (hi : i = pre.length) (hb : best < i) (hm : l.getD best 0 = m)
    (hall : ∀ j, j < i → l.getD j 0 ≤ m) (hfst : ∀ j, j < best → l.getD j 0 < m) :
    let r := argMaxFrom m best i xs
    r < l.length ∧ (∀ j, j < l.length → l.getD j 0 ≤ l.getD r 0) ∧ (∀ j, j < r → l.getD j 0 < l.getD r 0) := by
  induction xs generalizing m best i pre with
  | nil =>
    simp only [argMaxFrom]
    rw [List.append_nil] at hl
    subst hl
    rw [hm, ← hi]
    exact ⟨hb, hall, hfst⟩
  | cons x xs ih =>
    have hx : l.getD i 0 = x := by
      rw [hl, hi, List.getD_eq_getElem?_getD, List.getElem?_append_right (le_refl _)]; simp
    have hl' : l = (pre ++ [x]) ++ xs := by rw [hl]; simp
    simp only [argMaxFrom]
    by_cases h : x > m
    · rw [if_pos h]
      refine ih x i (i + 1) (pre ++ [x]) hl' (by simp [hi]) (by omega) hx ?_ ?_
      · intro j hj
        rcases Nat.lt_succ_iff_lt_or_eq.mp hj with hj | rfl
        · exact le_trans (hall j hj) h.le
        · exact hx.le
      · intro j hj; exact lt_of_le_of_lt (hall j hj) h
    · rw [if_neg h]
      refine ih m best (i + 1) (pre ++ [x]) hl' (by simp [hi]) (by omega) hm ?_ hfst
      intro j hj
      rcases Nat.lt_succ_iff_lt_or_eq.mp hj with hj | rfl
      · exact hall j hj
      · rw [hx]; exact not_lt.mp h

theorem argMax_spec (l : List K) (hne : l ≠ []) :
    argMax l < l.length ∧ (∀ j, j < l.length → l.getD j 0 ≤ l.getD (argMax l) 0) ∧
      (∀ j, j < argMax l → l.getD j 0 < l.getD (argMax l) 0) := by
  cases l with
  | nil => exact absurd rfl hne
  | cons x xs =>
    exact argMaxFrom_spec (x :: xs) x 0 1 xs [x] rfl rfl (by omega) rfl
      (fun j hj => by have : j = 0 := by omega
                      subst this; exact le_refl _)
      (fun j hj => by omega)

/-- The point of control is the first level of maximal volume. -/
theorem C40_poc_is_first_maximum (levels : List Int) (vols : List K) (pct : K) (hne : vols ≠ [])
    (hlen : levels.length = vols.length) :
    ∃ p, p < vols.length ∧ levels[p]? = some (compPocHvaLva levels vols pct).1 ∧
      (∀ j, j < vols.length → vols.getD j 0 ≤ vols.getD p 0) ∧ (∀ j, j < p → vols.getD j 0 < vols.getD p 0) := by
  obtain ⟨h1, h2, h3⟩ := argMax_spec vols hne
  refine ⟨argMax vols, h1, ?_, h2, h3⟩
  unfold compPocHvaLva
  rw [List.getD_eq_getElem _ _ (by omega), List.getElem?_eq_getElem (by omega)]

example : compPocHvaLva [10, 11, 12, 13, 14] ([1, 5, 2, 5, 1] : List ℚ) 70 = (11, 13, 11) := by decide +kernel

/-! ### Prefix sums -/

/-- prefix sum -/
def preSum (vols : List K) (k : Nat) : K := (vols.take k).sum

theorem preSum_succ (vols : List K) (k : Nat) (h : k < vols.length) : preSum vols (k + 1) = preSum vols k + vols.getD k 0 := by
  unfold preSum
  rw [List.take_add_one, List.sum_append, List.getElem?_eq_getElem h, List.getD_eq_getElem _ _ h]; simp

theorem preSum_ge (vols : List K) (k : Nat) (h : vols.length ≤ k) : preSum vols k = preSum vols vols.length := by
  unfold preSum
  rw [List.take_of_length_le h, List.take_length]

theorem preSum_total (vols : List K) : preSum vols vols.length = vols.sum := by
  unfold preSum; rw [List.take_length]

theorem preSum_mono (vols : List K) (hpos : ∀ x ∈ vols, 0 ≤ x) {a b : Nat} (h : a ≤ b) : preSum vols a ≤ preSum vols b := by
  induction b with
  | zero => have : a = 0 := by omega
            subst this; exact le_refl _
  | succ b ih =>
    rcases Nat.lt_or_eq_of_le h with h | rfl
    · have := ih (by omega)
      by_cases hb : b < vols.length
      · rw [preSum_succ _ _ hb]
        have : 0 ≤ vols.getD b 0 := by
          rw [List.getD_eq_getElem _ _ hb]; exact hpos _ (List.getElem_mem hb)
        linarith
      · rw [preSum_ge vols (b + 1) (by omega), ← preSum_ge vols b (by omega)]; exact this
    · exact le_refl _

theorem sum_take_drop (vols : List K) (a b : Nat) (h : a ≤ b) : ((vols.take b).drop a).sum = preSum vols b - preSum vols a := by
  have h1 : (vols.take b).sum = ((vols.take b).take a).sum + ((vols.take b).drop a).sum := by
    rw [← List.sum_append, List.take_append_drop]
  rw [List.take_take, min_eq_left h] at h1
  unfold preSum
  linarith

theorem volIn_eq (vols : List K) (lo hi : Nat) (h : lo ≤ hi + 1) : volIn vols lo hi = preSum vols (hi + 1) - preSum vols lo :=
  sum_take_drop vols lo (hi + 1) h

theorem pairUp_eq (vols : List K) (e : K) (up : Nat) (h : up < vols.length) :
    pairUp vols e up = preSum vols (up + 2) - preSum vols up := by
  unfold pairUp
  rw [if_pos h]
  by_cases h2 : up + 1 < vols.length
  · rw [if_pos h2, preSum_succ vols (up + 1) h2, preSum_succ vols up h]; ring
  · rw [if_neg h2, preSum_ge vols (up + 2) (by omega)]
    have : vols.length = up + 1 := by omega
    rw [this, preSum_succ vols up h]; ring

theorem pairDown_eq (vols : List K) (e : K) (lo : Nat) (h0 : 0 < lo) (h : lo ≤ vols.length) :
    pairDown vols e ((lo : Int) - 1) = preSum vols lo - preSum vols (lo - 2) := by
  unfold pairDown
  rw [if_pos (by omega)]
  obtain ⟨k, rfl⟩ : ∃ k, lo = k + 1 := ⟨lo - 1, by omega⟩
  have e1 : (((k + 1 : Nat) : Int) - 1).toNat = k := by omega
  rw [e1]
  by_cases h2 : 0 ≤ ((k + 1 : Nat) : Int) - 1 - 1
  · rw [if_pos h2]
    obtain ⟨j, rfl⟩ : ∃ j, k = j + 1 := ⟨k - 1, by omega⟩
    have e2 : (((j + 1 + 1 : Nat) : Int) - 1 - 1).toNat = j := by omega
    have e3 : j + 1 + 1 - 2 = j := by omega
    rw [e2, e3, preSum_succ vols (j + 1) (by omega), preSum_succ vols j (by omega)]; ring
  · rw [if_neg h2]
    have : k = 0 := by omega
    subst this
    rw [preSum_succ vols 0 (by omega)]
    show _ = _ - preSum vols 0
    ring

/-! ### The loop -/

/-- what the state says about the current interval -/
structure VaInv (levels : List Int) (vols : List K) (s : VaState K) (lo hi : Nat) : Prop where
  le : lo ≤ hi
  lt : hi < vols.length
  hva : s.hva = levels.getD hi 0
  lva : s.lva = levels.getD lo 0
  cum : s.cum = volIn vols lo hi
  upSide : (s.cu = -1 ∧ hi + 1 = vols.length) ∨ (s.up = hi + 1 ∧ s.cu = preSum vols (hi + 3) - preSum vols (hi + 1))
  downSide : (s.cd = -1 ∧ lo = 0) ∨ (s.down = (lo : Int) - 1 ∧ s.cd = preSum vols lo - preSum vols (lo - 2))

/-- remaining work -/
def vaMeasure (vols : List K) (s : VaState K) : Nat :=
  (if s.cu = -1 then 0 else vols.length - s.up + 1) + (if s.cd = -1 then 0 else (s.down + 1).toNat + 1)

theorem upSide_next (vols : List K) (hi : Nat) (hlt : hi < vols.length) (up : Nat) (hup : up = hi + 1) :
    (pairUp vols (-1) (up + 2) = -1 ∧ min (hi + 2) (vols.length - 1) + 1 = vols.length) ∨
      (up + 2 = min (hi + 2) (vols.length - 1) + 1 ∧ pairUp vols (-1) (up + 2)
        = preSum vols (min (hi + 2) (vols.length - 1) + 3) - preSum vols (min (hi + 2) (vols.length - 1) + 1)) := by
  subst hup
  by_cases h : hi + 1 + 2 < vols.length
  · right
    have e : min (hi + 2) (vols.length - 1) = hi + 2 := by omega
    rw [e, pairUp_eq _ _ _ h]
    exact ⟨rfl, rfl⟩
  · left
    constructor
    · unfold pairUp; rw [if_neg h]
    · omega

theorem downSide_next (vols : List K) (lo : Nat) (hlt : lo < vols.length) (down : Int) (hd : down = (lo : Int) - 1) :
    (pairDown vols (-1) (down - 2) = -1 ∧ lo - 2 = 0) ∨
      (down - 2 = ((lo - 2 : Nat) : Int) - 1 ∧ pairDown vols (-1) (down - 2)
        = preSum vols (lo - 2) - preSum vols (lo - 2 - 2)) := by
  subst hd
  by_cases h : 0 ≤ (lo : Int) - 1 - 2
  · right
    have e : (lo : Int) - 1 - 2 = ((lo - 2 : Nat) : Int) - 1 := by omega
    rw [e, pairDown_eq _ _ _ (by omega) (by omega)]
    exact ⟨rfl, rfl⟩
  · left
    constructor
    · unfold pairDown; rw [if_neg h]
    · omega

theorem measure_up (vols : List K) (up : Nat) :
    (if pairUp vols (-1) (up + 2) = -1 then 0 else vols.length - (up + 2) + 1) < vols.length - up + 1 := by
  split
  · omega
  · rename_i h
    have : up + 2 < vols.length := by
      by_contra hc
      apply h
      unfold pairUp; rw [if_neg hc]
    omega

theorem measure_down (vols : List K) (down : Int) :
    (if pairDown vols (-1) (down - 2) = -1 then 0 else (down - 2 + 1).toNat + 1) < (down + 1).toNat + 1 := by
  split
  · omega
  · rename_i h
    have : 0 ≤ down - 2 := by
      by_contra hc
      apply h
      unfold pairDown; rw [if_neg hc]
    omega

/-- one pass: the interval moves as the specification says and the remaining work decreases -/
theorem vaStep_spec (levels : List Int) (vols : List K) (hlen : levels.length = vols.length)
    (hpos : ∀ x ∈ vols, 0 ≤ x) (s : VaState K) (lo hi : Nat) (hI : VaInv levels vols s lo hi) :
    (vaStep levels vols s = none ∧ lo = 0 ∧ hi + 1 = vols.length) ∨
      ∃ s', vaStep levels vols s = some s' ∧
        VaInv levels vols s' (greedyNext vols (lo, hi)).1 (greedyNext vols (lo, hi)).2 ∧
        vaMeasure vols s' < vaMeasure vols s := by
  obtain ⟨h1, h2, h3, h4, h5, h6, h7⟩ := hI
  have hU : ((vols.take (hi + 3)).drop (hi + 1)).sum = preSum vols (hi + 3) - preSum vols (hi + 1) :=
    sum_take_drop _ _ _ (by omega)
  have hD : ((vols.take lo).drop (lo - 2)).sum = preSum vols lo - preSum vols (lo - 2) :=
    sum_take_drop _ _ _ (by omega)
  have hU0 : 0 ≤ preSum vols (hi + 3) - preSum vols (hi + 1) := by
    have := preSum_mono vols hpos (show hi + 1 ≤ hi + 3 by omega); linarith
  have hD0 : 0 ≤ preSum vols lo - preSum vols (lo - 2) := by
    have := preSum_mono vols hpos (show lo - 2 ≤ lo by omega); linarith
  have hUz : hi + 1 = vols.length → preSum vols (hi + 3) - preSum vols (hi + 1) = 0 := by
    intro e; rw [preSum_ge vols (hi + 3) (by omega), ← e]; ring
  have hDz : lo = 0 → preSum vols lo - preSum vols (lo - 2) = 0 := by rintro rfl; simp
  have hcu : -1 ≤ s.cu := by rcases h6 with h | h
                             · rw [h.1]
                             · rw [h.2]; linarith
  have hcd : -1 ≤ s.cd := by rcases h7 with h | h
                             · rw [h.1]
                             · rw [h.2]; linarith
  have hmin : min (hi + 1 + 1) (levels.length - 1) = min (hi + 2) (vols.length - 1) := by rw [hlen]
  have hmax : (max ((lo : Int) - 1 - 1) 0).toNat = lo - 2 := by omega
  have hge : hi ≤ min (hi + 2) (vols.length - 1) := by omega
  have hltm : min (hi + 2) (vols.length - 1) < vols.length := by omega
  have hminS : preSum vols (min (hi + 2) (vols.length - 1) + 1) = preSum vols (hi + 3) := by
    by_cases h : hi + 2 ≤ vols.length - 1
    · rw [min_eq_left h]
    · rw [min_eq_right (by omega), preSum_ge vols (hi + 3) (by omega)]
      congr 1; omega
  rw [volIn_eq _ _ _ (by omega)] at h5
  unfold vaStep
  by_cases hgt : s.cu > s.cd
  · -- extend upwards
    right
    rw [if_pos hgt]
    have h6' : s.up = hi + 1 ∧ s.cu = preSum vols (hi + 3) - preSum vols (hi + 1) := by
      rcases h6 with h | h
      · exfalso; rw [h.1] at hgt; linarith
      · exact h
    have hne : s.cu ≠ -1 := by intro e; rw [e] at hgt; linarith
    refine ⟨_, rfl, ?_, ?_⟩
    · have hn : (greedyNext vols (lo, hi)) = (lo, if hi + 1 < vols.length then min (hi + 2) (vols.length - 1) else hi) := by
        unfold greedyNext
        simp only []
        rw [hU, hD]
        rcases h7 with h | h
        · have hl : lo = 0 := h.2
          rw [if_neg (by omega)]
          simp [hl]
        · rw [h.2, h6'.2] at hgt
          have a1 : ¬ (preSum vols lo - preSum vols (lo - 2) ≥ preSum vols (hi + 3) - preSum vols (hi + 1)) := not_le.mpr hgt
          have hhi : hi + 1 ≠ vols.length := by
            intro e; rw [hUz e] at hgt; linarith
          rw [if_neg (by rintro ⟨_, h | h⟩; exact a1 h; exact hhi h)]
          have a2 : preSum vols (hi + 3) - preSum vols (hi + 1) ≥ preSum vols lo - preSum vols (lo - 2) := hgt.le
          simp [a2]
      have hn' : (if hi + 1 < vols.length then min (hi + 2) (vols.length - 1) else hi) = min (hi + 2) (vols.length - 1) := by
        split <;> omega
      rw [hn, hn']
      refine ⟨by simp only []; omega, by simpa using hltm, ?_, h4, ?_, ?_, h7⟩
      · show levels.getD (min (s.up + 1) (levels.length - 1)) 0 = _
        rw [h6'.1, hmin]
      · show s.cum + s.cu = _
        rw [volIn_eq _ _ _ (by simp only []; omega), hminS, h5, h6'.2]; ring
      · exact upSide_next vols hi h2 s.up h6'.1
    · have := measure_up vols s.up
      unfold vaMeasure vaUp
      simp only []
      rw [if_neg hne]
      omega
  · rw [if_neg hgt]
    by_cases hlt : s.cu < s.cd
    · right
      rw [if_pos hlt]
      have h7' : s.down = (lo : Int) - 1 ∧ s.cd = preSum vols lo - preSum vols (lo - 2) := by
        rcases h7 with h | h
        · exfalso; rw [h.1] at hlt; linarith
        · exact h
      have hne : s.cd ≠ -1 := by intro e; rw [e] at hlt; linarith
      refine ⟨_, rfl, ?_, ?_⟩
      · have hn : (greedyNext vols (lo, hi)) = (lo - 2, hi) := by
          unfold greedyNext
          simp only []
          rw [hU, hD]
          rcases h6 with h | h
          · have hl : hi + 1 = vols.length := h.2
            rw [if_neg (show ¬ (hi + 1 < vols.length ∧ _) by omega)]
            simp only [hl, or_true, and_true]
            split
            · rfl
            · have : lo = 0 := by omega
              rw [this]
          · rw [h.2, h7'.2] at hlt
            have a1 : ¬ (preSum vols (hi + 3) - preSum vols (hi + 1) ≥ preSum vols lo - preSum vols (lo - 2)) := not_le.mpr hlt
            have hlo : lo ≠ 0 := by
              intro e; rw [hDz e] at hlt; linarith
            rw [if_neg (show ¬ (hi + 1 < vols.length ∧ _) by rintro ⟨_, h | h⟩; exact a1 h; exact hlo h)]
            rw [if_pos ⟨by omega, Or.inl hlt.le⟩]
        rw [hn]
        refine ⟨by simp only []; omega, h2, h3, ?_, ?_, h6, ?_⟩
        · show levels.getD (max (s.down - 1) 0).toNat 0 = _
          rw [h7'.1, hmax]
        · show s.cum + s.cd = _
          rw [volIn_eq _ _ _ (by simp only []; omega), h5, h7'.2]; ring
        · exact downSide_next vols lo (by omega) s.down h7'.1
      · have := measure_down vols s.down
        unfold vaMeasure vaDown
        simp only []
        rw [if_neg hne]
        omega
    · rw [if_neg hlt]
      have heq : s.cu = s.cd := le_antisymm (not_lt.mp hgt) (not_lt.mp hlt)
      by_cases hne : s.cd ≠ -1
      · right
        rw [if_pos hne]
        have hne' : s.cu ≠ -1 := by rw [heq]; exact hne
        have h6' : s.up = hi + 1 ∧ s.cu = preSum vols (hi + 3) - preSum vols (hi + 1) := by
          rcases h6 with h | h
          · exact absurd h.1 hne'
          · exact h
        have h7' : s.down = (lo : Int) - 1 ∧ s.cd = preSum vols lo - preSum vols (lo - 2) := by
          rcases h7 with h | h
          · exact absurd h.1 hne
          · exact h
        refine ⟨_, rfl, ?_, ?_⟩
        · have hn : (greedyNext vols (lo, hi)) = (lo - 2, min (hi + 2) (vols.length - 1)) := by
            unfold greedyNext
            simp only []
            rw [hU, hD, ← h6'.2, ← h7'.2]
            congr 1
            · split
              · rfl
              · rename_i hc
                by_contra hne2
                exact hc ⟨by omega, Or.inl heq.le⟩
            · split
              · rfl
              · rename_i hc
                by_contra hne2
                exact hc ⟨by omega, Or.inl heq.ge⟩
          rw [hn]
          refine ⟨by simp only []; omega, hltm, ?_, ?_, ?_, ?_, ?_⟩
          · show levels.getD (min (s.up + 1) (levels.length - 1)) 0 = _
            rw [h6'.1, hmin]
          · show levels.getD (max (s.down - 1) 0).toNat 0 = _
            rw [h7'.1, hmax]
          · show s.cum + (s.cu + s.cd) = _
            rw [volIn_eq _ _ _ (by simp only []; omega), hminS, h5, h6'.2, h7'.2]; ring
          · exact upSide_next vols hi h2 s.up h6'.1
          · exact downSide_next vols lo (by omega) s.down h7'.1
        · have m1 := measure_up vols s.up
          have m2 := measure_down vols s.down
          unfold vaMeasure vaBoth
          simp only []
          rw [if_neg hne, if_neg hne']
          omega
      · left
        rw [if_neg hne]
        have hm1 : s.cd = -1 := not_not.mp hne
        refine ⟨rfl, ?_, ?_⟩
        · rcases h7 with h | h
          · exact h.2
          · rw [h.2] at hm1; linarith
        · rw [← heq] at hm1
          rcases h6 with h | h
          · exact h.2
          · rw [h.2] at hm1; linarith

theorem vaLoop_spec (levels : List Int) (vols : List K) (thr : K) (hlen : levels.length = vols.length)
    (hpos : ∀ x ∈ vols, 0 ≤ x) (hthr : thr ≤ vols.sum) (f : Nat) (s : VaState K) (lo hi : Nat)
    (hI : VaInv levels vols s lo hi) (hf : vaMeasure vols s < f) :
    ∃ m : Nat, (∀ k, k < m → volIn vols ((greedyNext vols)^[k] (lo, hi)).1 ((greedyNext vols)^[k] (lo, hi)).2 < thr) ∧
      thr ≤ volIn vols ((greedyNext vols)^[m] (lo, hi)).1 ((greedyNext vols)^[m] (lo, hi)).2 ∧
      VaInv levels vols (vaLoop levels vols thr f s) ((greedyNext vols)^[m] (lo, hi)).1
        ((greedyNext vols)^[m] (lo, hi)).2 := by
  induction f generalizing s lo hi with
  | zero => omega
  | succ f ih =>
    unfold vaLoop
    by_cases hc : s.cum < thr
    · rw [if_pos hc]
      rcases vaStep_spec levels vols hlen hpos s lo hi hI with ⟨_, h2, h3⟩ | ⟨s', h1, h2, h3⟩
      · exfalso
        have := hI.cum
        rw [volIn_eq _ _ _ (by omega), h2, h3, preSum_total] at this
        have h0 : preSum vols 0 = 0 := rfl
        rw [h0] at this
        rw [this] at hc
        linarith
      · rw [h1]
        obtain ⟨m, i1, i2, i3⟩ := ih s' _ _ h2 (by omega)
        refine ⟨m + 1, ?_, ?_, ?_⟩
        · intro k hk
          cases k with
          | zero =>
            rw [Function.iterate_zero, id]
            rw [hI.cum] at hc; exact hc
          | succ k => rw [Function.iterate_succ_apply]; exact i1 k (by omega)
        · rw [Function.iterate_succ_apply]; exact i2
        · rw [Function.iterate_succ_apply]; exact i3
    · rw [if_neg hc]
      refine ⟨0, fun k hk => by omega, ?_, hI⟩
      rw [Function.iterate_zero, id]
      rw [hI.cum] at hc; exact not_lt.mp hc

theorem vaLoop_fuel (levels : List Int) (vols : List K) (thr : K) (hlen : levels.length = vols.length)
    (hpos : ∀ x ∈ vols, 0 ≤ x) (f g : Nat) (s : VaState K) (lo hi : Nat)
    (hI : VaInv levels vols s lo hi) (hf : vaMeasure vols s < f) (hg : vaMeasure vols s < g) :
    vaLoop levels vols thr f s = vaLoop levels vols thr g s := by
  induction f generalizing g s lo hi with
  | zero => omega
  | succ f ih =>
    cases g with
    | zero => omega
    | succ g =>
      unfold vaLoop
      by_cases hc : s.cum < thr
      · rw [if_pos hc, if_pos hc]
        rcases vaStep_spec levels vols hlen hpos s lo hi hI with ⟨h1, _, _⟩ | ⟨s', h1, h2, h3⟩
        · rw [h1]
        · rw [h1]; exact ih g s' _ _ h2 (by omega) (by omega)
      · rw [if_neg hc, if_neg hc]

theorem vaInit_inv (levels : List Int) (vols : List K) (hne : vols ≠ []) :
    VaInv levels vols (vaInit levels vols) (argMax vols) (argMax vols) := by
  obtain ⟨h1, _, _⟩ := argMax_spec vols hne
  refine ⟨le_refl _, h1, rfl, rfl, ?_, ?_, ?_⟩
  · show vols.getD (argMax vols) 0 = _
    rw [volIn_eq _ _ _ (by omega), preSum_succ _ _ h1]; ring
  · right
    refine ⟨rfl, ?_⟩
    show pairUp vols 0 (argMax vols + 1) = _
    by_cases h : argMax vols + 1 < vols.length
    · rw [pairUp_eq _ _ _ h]
    · unfold pairUp
      have : argMax vols + 1 = vols.length := by omega
      rw [if_neg h, preSum_ge vols (argMax vols + 3) (by omega), this]; ring
  · right
    refine ⟨rfl, ?_⟩
    show pairDown vols 0 ((argMax vols : Int) - 1) = _
    by_cases h : 0 < argMax vols
    · rw [pairDown_eq _ _ _ h (by omega)]
    · have : argMax vols = 0 := by omega
      rw [this]; simp [pairDown]

theorem vaInit_measure (levels : List Int) (vols : List K) (hne : vols ≠ []) :
    vaMeasure vols (vaInit levels vols) < vols.length + 2 := by
  obtain ⟨h1, _, _⟩ := argMax_spec vols hne
  unfold vaMeasure
  have e1 : (vaInit levels vols).up = argMax vols + 1 := rfl
  have e2 : (vaInit levels vols).down = (argMax vols : Int) - 1 := rfl
  rw [e1, e2]
  split <;> split <;> omega

/-! ### Theorems -/

/-- The value-area loop ends: allowing more passes than `n + 2` never changes the result. -/
theorem C40_loop_terminates (levels : List Int) (vols : List K) (thr : K) (hne : vols ≠ [])
    (hlen : levels.length = vols.length) (hpos : ∀ x ∈ vols, 0 ≤ x) (f : Nat) (hf : vols.length + 2 ≤ f) :
    vaLoop levels vols thr f (vaInit levels vols) = vaLoop levels vols thr (vols.length + 2) (vaInit levels vols) := by
  have := vaInit_measure levels vols hne
  exact vaLoop_fuel levels vols thr hlen hpos _ _ _ _ _ (vaInit_inv levels vols hne) (by omega) this

example : vaLoop [1, 2, 3] ([0, 5, 1] : List ℚ) 6 50 (vaInit [1, 2, 3] [0, 5, 1])
    = vaLoop [1, 2, 3] ([0, 5, 1] : List ℚ) 6 5 (vaInit [1, 2, 3] [0, 5, 1]) := by decide +kernel

/-- The value area is exactly the greedy extension of the point of control, stopped at the first interval that holds
the requested share. -/
theorem C40_value_area_greedy (levels : List Int) (vols : List K) (pct : K) (hne : vols ≠ [])
    (hlen : levels.length = vols.length) (hpos : ∀ x ∈ vols, 0 ≤ x) (hp : pct ≤ 100) :
    ∃ (p m lo hi : Nat), (greedyNext vols)^[m] (p, p) = (lo, hi) ∧
      (∀ k, k < m → volIn vols ((greedyNext vols)^[k] (p, p)).1 ((greedyNext vols)^[k] (p, p)).2
        < vols.sum * (pct / 100)) ∧
      vols.sum * (pct / 100) ≤ volIn vols lo hi ∧
      lo ≤ hi ∧ hi < vols.length ∧
      levels[p]? = some (compPocHvaLva levels vols pct).1 ∧
      levels[hi]? = some (compPocHvaLva levels vols pct).2.1 ∧
      levels[lo]? = some (compPocHvaLva levels vols pct).2.2 := by
  have hsum : 0 ≤ vols.sum := List.sum_nonneg hpos
  have hthr : vols.sum * (pct / 100) ≤ vols.sum := by
    have : pct / 100 ≤ 1 := by rw [div_le_one (by norm_num)]; exact hp
    nlinarith
  obtain ⟨m, i1, i2, i3⟩ := vaLoop_spec levels vols _ hlen hpos hthr (vols.length + 2) _ _ _ (vaInit_inv levels vols hne)
    (vaInit_measure levels vols hne)
  obtain ⟨a1, _, _⟩ := argMax_spec vols hne
  refine ⟨argMax vols, m, _, _, rfl, i1, i2, i3.le, i3.lt, ?_, ?_, ?_⟩
  · unfold compPocHvaLva
    rw [List.getD_eq_getElem _ _ (by omega), List.getElem?_eq_getElem (by omega)]
  · unfold compPocHvaLva
    simp only []
    have := i3.lt
    rw [i3.hva, List.getD_eq_getElem _ _ (by omega), List.getElem?_eq_getElem (by omega)]
  · unfold compPocHvaLva
    simp only []
    have := i3.lt
    have := i3.le
    rw [i3.lva, List.getD_eq_getElem _ _ (by omega), List.getElem?_eq_getElem (by omega)]

example : compPocHvaLva [10, 11, 12, 13, 14, 15] ([1, 2, 9, 1, 1, 1] : List ℚ) 75 = (12, 12, 10) := by decide +kernel

theorem greedyNext_bounds (vols : List K) (I : Nat × Nat) (h1 : I.1 ≤ I.2) (h2 : I.2 < vols.length) :
    (greedyNext vols I).1 ≤ I.1 ∧ I.2 ≤ (greedyNext vols I).2 ∧ I.1 ≤ (greedyNext vols I).1 + 2 ∧
      (greedyNext vols I).2 ≤ I.2 + 2 ∧ (greedyNext vols I).2 < vols.length := by
  unfold greedyNext
  simp only []
  refine ⟨?_, ?_, ?_, ?_, ?_⟩ <;> split <;> omega

theorem greedyIter_bounds (vols : List K) (p : Nat) (hp : p < vols.length) (m : Nat) :
    ((greedyNext vols)^[m] (p, p)).1 ≤ p ∧ p ≤ ((greedyNext vols)^[m] (p, p)).2 ∧
      ((greedyNext vols)^[m] (p, p)).2 < vols.length := by
  induction m with
  | zero => simp [hp]
  | succ m ih =>
    rw [Function.iterate_succ_apply']
    obtain ⟨a, b, _, _, c⟩ := greedyNext_bounds vols ((greedyNext vols)^[m] (p, p)) (by omega) ih.2.2
    exact ⟨by omega, by omega, c⟩

/-- volume of the levels whose price lies between two of the levels -/
theorem filter_levels (levels : List Int) (vols : List K) (hlen : levels.length = vols.length)
    (hs : levels.Pairwise (· < ·)) (lo hi : Nat) (hle : lo ≤ hi) (hlt : hi < vols.length) :
    (((levels.zip vols).filter (fun x => decide (levels.getD lo 0 ≤ x.1 ∧ x.1 ≤ levels.getD hi 0))).map Prod.snd).sum
      = volIn vols lo hi := by
  have hzl : (levels.zip vols).length = vols.length := by simp [hlen]
  have hget : ∀ (i : Nat) (h : i < (levels.zip vols).length), ((levels.zip vols)[i]).1 = levels[i]'(by omega) := by
    intro i h; rw [List.getElem_zip]
  have hmono : ∀ (i j : Nat) (hi : i < levels.length) (hj : j < levels.length), levels[i] < levels[j] ↔ i < j := by
    intro i j hi hj
    constructor
    · intro h
      by_contra hc
      rcases Nat.lt_or_eq_of_le (not_lt.mp hc) with h' | h'
      · have := List.pairwise_iff_getElem.mp hs j i hj hi h'; omega
      · subst h'; omega
    · intro h; exact List.pairwise_iff_getElem.mp hs i j hi hj h
  have hsplit : levels.zip vols = (levels.zip vols).take lo ++ (((levels.zip vols).take (hi + 1)).drop lo ++
      (levels.zip vols).drop (hi + 1)) := by
    have h1 : (levels.zip vols).take lo ++ ((levels.zip vols).take (hi + 1)).drop lo = (levels.zip vols).take (hi + 1) := by
      have : (levels.zip vols).take lo = ((levels.zip vols).take (hi + 1)).take lo := by
        rw [List.take_take, min_eq_left (by omega)]
      rw [this, List.take_append_drop]
    rw [← List.append_assoc, h1, List.take_append_drop]
  rw [List.getD_eq_getElem _ _ (show lo < levels.length by omega), List.getD_eq_getElem _ _ (show hi < levels.length by omega)]
  conv_lhs => rw [hsplit]
  rw [List.filter_append, List.filter_append]
  have f1 : ((levels.zip vols).take lo).filter (fun x => decide (levels[lo] ≤ x.1 ∧ x.1 ≤ levels[hi])) = [] := by
    rw [List.filter_eq_nil_iff]
    intro b hb
    obtain ⟨i, hi', rfl⟩ := List.getElem_of_mem hb
    rw [List.length_take] at hi'
    rw [List.getElem_take, hget]
    have := (hmono i lo (by omega) (by omega)).mpr (by omega)
    simp only [decide_eq_true_eq]; omega
  have f2 : (((levels.zip vols).take (hi + 1)).drop lo).filter (fun x => decide (levels[lo] ≤ x.1 ∧ x.1 ≤ levels[hi]))
      = ((levels.zip vols).take (hi + 1)).drop lo := by
    rw [List.filter_eq_self]
    intro b hb
    obtain ⟨i, hi', rfl⟩ := List.getElem_of_mem hb
    rw [List.length_drop, List.length_take] at hi'
    rw [List.getElem_drop, List.getElem_take, hget]
    have a1 : ¬ levels[lo + i] < levels[lo] := by rw [hmono]; omega
    have a2 : ¬ levels[hi] < levels[lo + i] := by rw [hmono]; omega
    simp only [decide_eq_true_eq]; omega
  have f3 : ((levels.zip vols).drop (hi + 1)).filter (fun x => decide (levels[lo] ≤ x.1 ∧ x.1 ≤ levels[hi])) = [] := by
    rw [List.filter_eq_nil_iff]
    intro b hb
    obtain ⟨i, hi', rfl⟩ := List.getElem_of_mem hb
    rw [List.length_drop] at hi'
    rw [List.getElem_drop, hget]
    have := (hmono hi (hi + 1 + i) (by omega) (by omega)).mpr (by omega)
    simp only [decide_eq_true_eq]; omega
  rw [f1, f2, f3, List.nil_append, List.append_nil, List.map_drop, List.map_take, List.map_snd_zip (by omega)]
  rfl

/-- On ascending levels: LVA ≤ POC ≤ HVA, all three are levels of the profile, and the levels between LVA and HVA hold
at least the requested share of the volume. -/
theorem C40_value_area_covers (levels : List Int) (vols : List K) (pct : K) (hne : vols ≠ [])
    (hlen : levels.length = vols.length) (hs : levels.Pairwise (· < ·)) (hpos : ∀ x ∈ vols, 0 ≤ x) (hp : pct ≤ 100) :
    let r := compPocHvaLva levels vols pct
    r.1 ∈ levels ∧ r.2.1 ∈ levels ∧ r.2.2 ∈ levels ∧ r.2.2 ≤ r.1 ∧ r.1 ≤ r.2.1 ∧
    vols.sum * (pct / 100)
      ≤ (((levels.zip vols).filter (fun x => decide (r.2.2 ≤ x.1 ∧ x.1 ≤ r.2.1))).map Prod.snd).sum := by
  intro r
  have hsum : 0 ≤ vols.sum := List.sum_nonneg hpos
  have hthr : vols.sum * (pct / 100) ≤ vols.sum := by
    have : pct / 100 ≤ 1 := by rw [div_le_one (by norm_num)]; exact hp
    nlinarith
  obtain ⟨m, i1, i2, i3⟩ := vaLoop_spec levels vols _ hlen hpos hthr (vols.length + 2) _ _ _ (vaInit_inv levels vols hne)
    (vaInit_measure levels vols hne)
  obtain ⟨a1, _, _⟩ := argMax_spec vols hne
  obtain ⟨b1, b2, b3⟩ := greedyIter_bounds vols (argMax vols) a1 m
  have hr1 : r.1 = levels[argMax vols]'(by omega) := List.getD_eq_getElem _ _ (by omega)
  have hr2 : r.2.1 = levels.getD ((greedyNext vols)^[m] (argMax vols, argMax vols)).2 0 := i3.hva
  have hr3 : r.2.2 = levels.getD ((greedyNext vols)^[m] (argMax vols, argMax vols)).1 0 := i3.lva
  have hle : levels.Pairwise (· ≤ ·) := hs.imp le_of_lt
  refine ⟨?_, ?_, ?_, ?_, ?_, ?_⟩
  · rw [hr1]; exact List.getElem_mem _
  · rw [hr2, List.getD_eq_getElem _ _ (by omega)]; exact List.getElem_mem _
  · rw [hr3, List.getD_eq_getElem _ _ (by omega)]; exact List.getElem_mem _
  · rw [hr1, hr3, List.getD_eq_getElem _ _ (by omega)]; exact sorted_get_le hle (by omega) (by omega) b1
  · rw [hr1, hr2, List.getD_eq_getElem _ _ (by omega)]; exact sorted_get_le hle (by omega) (by omega) b2
  · rw [hr2, hr3, filter_levels levels vols hlen hs _ _ (by omega) b3]; exact i2

example : (let r := compPocHvaLva [10, 11, 12, 13, 14] ([1, 5, 2, 4, 1] : List ℚ) 70; (r.1, r.2.1, r.2.2)) = (11, 13, 11) := by
  decide +kernel

/-- The value area is tight: unless it is the point of control alone, dropping at most two levels at each end gives an
interval that still contains the point of control but misses the requested share. -/
theorem C40_value_area_tight (levels : List Int) (vols : List K) (pct : K) (hne : vols ≠ [])
    (hlen : levels.length = vols.length) (hpos : ∀ x ∈ vols, 0 ≤ x) (hp : pct ≤ 100) :
    ∃ (p lo hi : Nat), levels[p]? = some (compPocHvaLva levels vols pct).1 ∧
      levels[hi]? = some (compPocHvaLva levels vols pct).2.1 ∧
      levels[lo]? = some (compPocHvaLva levels vols pct).2.2 ∧
      ((lo = p ∧ hi = p) ∨ ∃ lo' hi', lo ≤ lo' ∧ lo' ≤ lo + 2 ∧ lo' ≤ p ∧ p ≤ hi' ∧ hi' ≤ hi ∧ hi ≤ hi' + 2 ∧
        volIn vols lo' hi' < vols.sum * (pct / 100)) := by
  have hsum : 0 ≤ vols.sum := List.sum_nonneg hpos
  have hthr : vols.sum * (pct / 100) ≤ vols.sum := by
    have : pct / 100 ≤ 1 := by rw [div_le_one (by norm_num)]; exact hp
    nlinarith
  obtain ⟨m, i1, i2, i3⟩ := vaLoop_spec levels vols _ hlen hpos hthr (vols.length + 2) _ _ _ (vaInit_inv levels vols hne)
    (vaInit_measure levels vols hne)
  obtain ⟨a1, _, _⟩ := argMax_spec vols hne
  obtain ⟨b1, b2, b3⟩ := greedyIter_bounds vols (argMax vols) a1 m
  refine ⟨argMax vols, ((greedyNext vols)^[m] (argMax vols, argMax vols)).1,
    ((greedyNext vols)^[m] (argMax vols, argMax vols)).2, ?_, ?_, ?_, ?_⟩
  · unfold compPocHvaLva
    rw [List.getD_eq_getElem _ _ (by omega), List.getElem?_eq_getElem (by omega)]
  · unfold compPocHvaLva
    simp only []
    rw [i3.hva, List.getD_eq_getElem _ _ (by omega), List.getElem?_eq_getElem (by omega)]
  · unfold compPocHvaLva
    simp only []
    rw [i3.lva, List.getD_eq_getElem _ _ (by omega), List.getElem?_eq_getElem (by omega)]
  · cases m with
    | zero => left; simp
    | succ m =>
      right
      obtain ⟨c1, c2, c3⟩ := greedyIter_bounds vols (argMax vols) a1 m
      refine ⟨_, _, ?_, ?_, c1, c2, ?_, ?_, i1 m (by omega)⟩ <;> rw [Function.iterate_succ_apply'] <;>
        have := greedyNext_bounds vols ((greedyNext vols)^[m] (argMax vols, argMax vols)) (by omega) c3 <;> omega

example : compPocHvaLva [10, 11, 12] ([1, 8, 1] : List ℚ) 50 = (11, 11, 11) := by decide +kernel

/-- Share of the volume above the point of control: the exact quotient, between 0 and 1, and 0 for an empty profile. -/
theorem C40_share_above_poc (levels : List Int) (vols : List K) (poc : Int) (hpos : ∀ x ∈ vols, 0 ≤ x)
    (hlen : levels.length = vols.length) :
    pctAbovePoc levels vols poc
        = (((levels.zip vols).filter (fun x => decide (poc < x.1))).map Prod.snd).sum / vols.sum ∧
      0 ≤ pctAbovePoc levels vols poc ∧ pctAbovePoc levels vols poc ≤ 1 := by
  have hfold : ∀ (z : List (Int × K)) (a : K), z.foldl (fun acc p => if p.1 > poc then acc + p.2 else acc) a
      = a + ((z.filter (fun x => decide (poc < x.1))).map Prod.snd).sum := by
    intro z
    induction z with
    | nil => simp
    | cons x t ih =>
      intro a
      rw [List.foldl_cons, ih]
      by_cases h : x.1 > poc
      · rw [if_pos h, List.filter_cons_of_pos (by simpa using h), List.map_cons, List.sum_cons]; ring
      · rw [if_neg h, List.filter_cons_of_neg (by simpa using h)]
  have hzs : vols.sum = ((levels.zip vols).map Prod.snd).sum := by rw [List.map_snd_zip (by omega)]
  have hzpos : ∀ x ∈ levels.zip vols, 0 ≤ x.2 := fun x hx => hpos _ (List.of_mem_zip hx).2
  have hA0 : 0 ≤ (((levels.zip vols).filter (fun x => decide (poc < x.1))).map Prod.snd).sum := by
    apply List.sum_nonneg
    intro x hx
    obtain ⟨y, hy, rfl⟩ := List.mem_map.mp hx
    exact hzpos y (List.mem_filter.mp hy).1
  have hA1 : (((levels.zip vols).filter (fun x => decide (poc < x.1))).map Prod.snd).sum ≤ vols.sum := by
    rw [hzs]
    revert hzpos
    generalize levels.zip vols = z
    intro hz
    induction z with
    | nil => simp
    | cons x t ih =>
      have h1 := ih (fun y hy => hz y (List.mem_cons_of_mem _ hy))
      have h2 := hz x List.mem_cons_self
      by_cases h : poc < x.1
      · rw [List.filter_cons_of_pos (by simpa using h), List.map_cons, List.sum_cons, List.map_cons, List.sum_cons]
        linarith
      · rw [List.filter_cons_of_neg (by simpa using h), List.map_cons, List.sum_cons]; linarith
  unfold pctAbovePoc
  simp only []
  rw [hfold, zero_add]
  generalize (((levels.zip vols).filter (fun x => decide (poc < x.1))).map Prod.snd).sum = A at *
  split
  · rename_i h
    have : vols.sum = 0 := le_antisymm h (List.sum_nonneg hpos)
    rw [this]; simp
  · rename_i h
    have hT : 0 < vols.sum := not_le.mp h
    split
    · rename_i h2
      have : A = 0 := le_antisymm h2 hA0
      rw [this]; simp
    · exact ⟨rfl, div_nonneg hA0 hT.le, by rw [div_le_one hT]; exact hA1⟩

example : pctAbovePoc [10, 11, 12] ([1, 5, 2] : List ℚ) 11 = 1 / 4 := by decide +kernel

end FinML

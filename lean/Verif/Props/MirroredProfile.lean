/-
C170: point of control and value area of a volume profile with the price axis reversed.
`finmlkit/feature/core/volume.py`, `finmlkit/bar/base.py`.
-/
import Verif.Props.ValueArea
import Verif.Lemmas.Footprint

set_option linter.unusedSectionVars false

namespace FinML

variable {K : Type} [Field K] [LinearOrder K] [IsStrictOrderedRing K]

/-! ## Specification -/

/-- Price levels on the reversed axis, again in increasing order. -/
def mirrorLevels (levels : List Int) : List Int := (levels.map (fun x => -x)).reverse

/-! ## Helpers -/

theorem getD_reverse_of_lt {α : Type} (l : List α) (d : α) (k : Nat) (h : k < l.length) :
    l.reverse.getD k d = l.getD (l.length - 1 - k) d := by
  rw [List.getD_eq_getElem _ _ (by rw [List.length_reverse]; exact h), List.getD_eq_getElem _ _ (by omega), List.getElem_reverse]

theorem mirrorLevels_getD (levels : List Int) (k : Nat) (h : k < levels.length) :
    (mirrorLevels levels).getD k 0 = -levels.getD (levels.length - 1 - k) 0 := by
  unfold mirrorLevels
  rw [getD_reverse_of_lt _ _ _ (by rw [List.length_map]; exact h), List.length_map,
    List.getD_eq_getElem _ _ (by rw [List.length_map]; omega), List.getElem_map, List.getD_eq_getElem _ _ (by omega)]

theorem argMax_reverse (vols : List K) (p : Nat) (hp : p < vols.length) (hmax : ∀ j, j < vols.length → j ≠ p → vols.getD j 0 < vols.getD p 0) :
    argMax vols = p ∧ argMax vols.reverse = vols.length - 1 - p := by
  have hne : vols ≠ [] := by rintro rfl; simp at hp
  constructor
  · obtain ⟨a, b, -⟩ := argMax_spec vols hne
    by_contra hc
    exact absurd (hmax _ a hc) (not_lt.mpr (b p hp))
  · obtain ⟨a, b, -⟩ := argMax_spec vols.reverse (by simpa using hne)
    rw [List.length_reverse] at a b
    by_contra hc
    have h1 := b (vols.length - 1 - p) (by omega)
    rw [getD_reverse_of_lt _ _ _ a, getD_reverse_of_lt _ _ _ (by omega), show vols.length - 1 - (vols.length - 1 - p) = p by omega] at h1
    exact absurd (hmax (vols.length - 1 - argMax vols.reverse) (by omega) (by omega)) (not_lt.mpr h1)

theorem pairUp_reverse (vols : List K) (e : K) (up : Nat) (down : Int) (h : (up : Int) = (vols.length : Int) - 1 - down) (hd : down < vols.length) :
    pairUp vols.reverse e up = pairDown vols e down := by
  unfold pairUp pairDown
  rw [List.length_reverse]
  by_cases h0 : 0 ≤ down
  · rw [if_pos h0, if_pos (show up < vols.length by omega), getD_reverse_of_lt _ _ _ (by omega),
      show vols.length - 1 - up = down.toNat by omega]
    by_cases h1 : 0 ≤ down - 1
    · rw [if_pos h1, if_pos (show up + 1 < vols.length by omega), getD_reverse_of_lt _ _ _ (by omega),
        show vols.length - 1 - (up + 1) = (down - 1).toNat by omega]
    · rw [if_neg h1, if_neg (show ¬ up + 1 < vols.length by omega)]
  · rw [if_neg h0, if_neg (show ¬ up < vols.length by omega)]

theorem pairDown_reverse (vols : List K) (e : K) (up : Nat) (down : Int) (h : down = (vols.length : Int) - 1 - up) :
    pairDown vols.reverse e down = pairUp vols e up := by
  have := pairUp_reverse vols.reverse e up down (by rw [List.length_reverse]; omega) (by rw [List.length_reverse]; omega)
  rw [List.reverse_reverse] at this
  exact this.symm

/-- The loop state on the reversed axis. -/
structure VaMirror (n : Nat) (s t : VaState K) : Prop where
  cum : t.cum = s.cum
  hva : t.hva = -s.lva
  lva : t.lva = -s.hva
  up : (t.up : Int) = (n : Int) - 1 - s.down
  down : t.down = (n : Int) - 1 - s.up
  cu : t.cu = s.cd
  cd : t.cd = s.cu

theorem mirror_low (levels : List Int) (n : Nat) (hl : levels.length = n) (h0 : 0 < n) (up : Nat) (down : Int) (h : down = (n : Int) - 1 - up) :
    (mirrorLevels levels).getD (max (down - 1) 0).toNat 0 = -levels.getD (min (up + 1) (n - 1)) 0 := by
  rw [mirrorLevels_getD _ _ (by omega)]
  congr 2
  omega

theorem mirror_high (levels : List Int) (n : Nat) (hl : levels.length = n) (h0 : 0 < n) (up : Nat) (down : Int)
    (h : (up : Int) = (n : Int) - 1 - down) :
    (mirrorLevels levels).getD (min (up + 1) (n - 1)) 0 = -levels.getD (max (down - 1) 0).toNat 0 := by
  rw [mirrorLevels_getD _ _ (by omega)]
  congr 2
  omega

theorem vaStep_mirror (levels : List Int) (vols : List K) (hl : levels.length = vols.length) (h0 : 0 < vols.length) (s t : VaState K)
    (h : VaMirror vols.length s t) :
    match vaStep levels vols s, vaStep (mirrorLevels levels) vols.reverse t with
    | some s', some t' => VaMirror vols.length s' t'
    | none, none => True
    | _, _ => False := by
  have hml : (mirrorLevels levels).length = vols.length := by unfold mirrorLevels; rw [List.length_reverse, List.length_map, hl]
  have e1 := mirror_low levels vols.length hl h0 s.up t.down h.down
  have e2 := mirror_high levels vols.length hl h0 t.up s.down h.up
  have hdn : s.down < (vols.length : Int) := by have := h.up; omega
  have p1 := pairDown_reverse vols (-1 : K) (s.up + 2) (t.down - 2) (by have := h.down; push_cast; omega)
  have p2 := pairUp_reverse vols (-1 : K) (t.up + 2) (s.down - 2) (by have := h.up; push_cast; omega) (by omega)
  unfold vaStep
  rw [h.cu, h.cd]
  rcases lt_trichotomy s.cu s.cd with hc | hc | hc
  · rw [if_neg (not_lt.mpr hc.le), if_pos hc, if_pos hc]
    refine ⟨?_, ?_, h.lva, ?_, h.down, p2, h.cd⟩
    · simp only [vaUp, vaDown, h.cum, h.cu]
    · simp only [vaUp, vaDown, hml, e2]
    · simp only [vaUp, vaDown]; have := h.up; push_cast; omega
  · have n1 : ¬ s.cu < s.cd := by rw [hc]; exact lt_irrefl _
    have n2 : ¬ s.cd < s.cu := by rw [hc]; exact lt_irrefl _
    by_cases hm : s.cd = -1
    · have hm' : s.cu = -1 := hc.trans hm
      simp only [gt_iff_lt, n1, n2, if_false, ne_eq, hm, hm', not_true_eq_false, lt_irrefl]
    · have hm' : ¬ s.cu = -1 := by rw [hc]; exact hm
      simp only [gt_iff_lt, n1, n2, if_false, ne_eq, hm, hm', not_false_eq_true, if_true]
      refine ⟨?_, ?_, ?_, ?_, ?_, p2, p1⟩
      · simp only [vaBoth, h.cum, h.cu, h.cd]; rw [add_comm s.cd s.cu]
      · simp only [vaBoth, hml, e2]
      · simp only [vaBoth, hl, e1]
      · simp only [vaBoth]; have := h.up; push_cast; omega
      · simp only [vaBoth]; have := h.down; push_cast; omega
  · rw [if_pos hc, if_neg (not_lt.mpr hc.le), if_pos hc]
    refine ⟨?_, h.hva, ?_, h.up, ?_, h.cu, p1⟩
    · simp only [vaUp, vaDown, h.cum, h.cd]
    · simp only [vaUp, vaDown, hl, e1]
    · simp only [vaUp, vaDown]; have := h.down; push_cast; omega

theorem vaLoop_mirror (levels : List Int) (vols : List K) (thr : K) (hl : levels.length = vols.length) (h0 : 0 < vols.length) (f : Nat)
    (s t : VaState K) (h : VaMirror vols.length s t) :
    VaMirror vols.length (vaLoop levels vols thr f s) (vaLoop (mirrorLevels levels) vols.reverse thr f t) := by
  induction f generalizing s t with
  | zero => exact h
  | succ f ih =>
    simp only [vaLoop, h.cum]
    by_cases hc : s.cum < thr
    · rw [if_pos hc, if_pos hc]
      have hs := vaStep_mirror levels vols hl h0 s t h
      cases e1 : vaStep levels vols s with
      | none =>
        cases e2 : vaStep (mirrorLevels levels) vols.reverse t with
        | none => exact h
        | some t' => rw [e1, e2] at hs; exact hs.elim
      | some s' =>
        cases e2 : vaStep (mirrorLevels levels) vols.reverse t with
        | none => rw [e1, e2] at hs; exact hs.elim
        | some t' => rw [e1, e2] at hs; exact ih s' t' hs
    · rw [if_neg hc, if_neg hc]
      exact h

/-! ## C170 -/

/-- **C170 (value area).** If one level has more volume than every other, reversing the price axis reverses the point of
control and exchanges the bounds of the value area: the search prefers neither side. -/
theorem C170_value_area (levels : List Int) (vols : List K) (pct : K) (p : Nat) (hl : levels.length = vols.length) (hp : p < vols.length)
    (hmax : ∀ j, j < vols.length → j ≠ p → vols.getD j 0 < vols.getD p 0) :
    let r := compPocHvaLva levels vols pct
    compPocHvaLva (mirrorLevels levels) vols.reverse pct = (-r.1, -r.2.2, -r.2.1) := by
  intro r
  obtain ⟨a1, a2⟩ := argMax_reverse vols p hp hmax
  have hpoc : (mirrorLevels levels).getD (vols.length - 1 - p) 0 = -levels.getD p 0 := by
    rw [mirrorLevels_getD _ _ (by omega)]
    congr 2
    omega
  have hv : vols.reverse.getD (vols.length - 1 - p) 0 = vols.getD p 0 := by
    rw [getD_reverse_of_lt _ _ _ (by omega)]
    congr 1
    omega
  have hinit : VaMirror vols.length (vaInit levels vols) (vaInit (mirrorLevels levels) vols.reverse) := by
    unfold vaInit
    rw [a1, a2]
    refine ⟨hv, hpoc, hpoc, ?_, ?_, ?_, ?_⟩
    · simp only; push_cast; omega
    · simp only; push_cast; omega
    · exact pairUp_reverse vols 0 _ _ (by push_cast; omega) (by omega)
    · exact pairDown_reverse vols 0 _ _ (by push_cast; omega)
  have hfin := vaLoop_mirror levels vols (vols.sum * (pct / 100)) hl (by omega) (vols.length + 2) _ _ hinit
  simp only [r, compPocHvaLva, a1, a2, hpoc, List.sum_reverse, List.length_reverse, hfin.hva, hfin.lva]

example : compPocHvaLva [10, 11, 12, 14, 15, 17] ([1, 2, 3, 9, 5, 1] : List ℚ) 70 = (14, 17, 14) ∧
    mirrorLevels [10, 11, 12, 14, 15, 17] = [-17, -15, -14, -12, -11, -10] ∧
    compPocHvaLva [-17, -15, -14, -12, -11, -10] ([1, 5, 9, 3, 2, 1] : List ℚ) 70 = (-14, -14, -17) := by decide +kernel

/-- **C170 (ties).** Of several levels with the largest volume the lowest is the point of control, so a profile that is
its own mirror image has a point of control off its centre. -/
theorem C170_tie_prefers_low :
    compPocHvaLva [-1, 0, 1] ([5, 2, 5] : List ℚ) 40 = (-1, -1, -1) ∧ mirrorLevels [-1, 0, 1] = [-1, 0, 1] ∧
    ([5, 2, 5] : List ℚ).reverse = [5, 2, 5] := by decide +kernel

theorem foldl_above (poc : Int) (l : List (Int × K)) (a : K) :
    l.foldl (fun acc p => if p.1 > poc then acc + p.2 else acc) a = a + (l.map (fun p => if p.1 > poc then p.2 else 0)).sum := by
  induction l generalizing a with
  | nil => simp
  | cons x l ih =>
    rw [List.foldl_cons, ih, List.map_cons, List.sum_cons]
    by_cases h : x.1 > poc
    · rw [if_pos h, if_pos h]; ring
    · rw [if_neg h, if_neg h]; ring

theorem zip_mirror (levels : List Int) (vols : List K) (hl : levels.length = vols.length) :
    (mirrorLevels levels).zip vols.reverse = ((levels.zip vols).map (fun p => (-p.1, p.2))).reverse := by
  unfold mirrorLevels
  have hr := List.reverse_zipWith (f := Prod.mk) (l := levels.map (fun x => -x)) (l' := vols) (by rw [List.length_map]; exact hl)
  rw [show ((levels.map (fun x => -x)).reverse).zip vols.reverse = List.zipWith Prod.mk (levels.map (fun x => -x)).reverse vols.reverse from rfl, ← hr]
  congr 1
  clear hl hr
  induction levels generalizing vols with
  | nil => rfl
  | cons x l ih =>
    cases vols with
    | nil => rfl
    | cons v vs => rw [List.map_cons, List.zipWith_cons_cons, List.zip_cons_cons, List.map_cons, ih]

/-- **C170 (volume above the point of control).** The shares of volume above a level, above its mirror image on the
reversed axis, and at the level add up to 1. -/
theorem C170_above (levels : List Int) (vols : List K) (poc : Int) (hl : levels.length = vols.length) (hpos : ∀ x ∈ vols, 0 ≤ x)
    (hs : 0 < vols.sum) :
    pctAbovePoc levels vols poc + pctAbovePoc (mirrorLevels levels) vols.reverse (-poc) +
      ((levels.zip vols).map (fun p => if p.1 = poc then p.2 else 0)).sum / vols.sum = 1 := by
  have hz : ∀ p ∈ levels.zip vols, 0 ≤ p.2 := fun p hp => hpos _ (List.of_mem_zip hp).2
  have nn : ∀ (q : Int) (l : List (Int × K)), (∀ p ∈ l, 0 ≤ p.2) → 0 ≤ (l.map (fun p => if p.1 > q then p.2 else 0)).sum := by
    intro q l h
    apply List.sum_nonneg
    intro x hx
    obtain ⟨p, hp, rfl⟩ := List.mem_map.mp hx
    split
    · exact h p hp
    · exact le_refl _
  have key : ∀ (lv : List Int) (vs : List K) (q : Int), vs.sum = vols.sum → (∀ p ∈ lv.zip vs, 0 ≤ p.2) →
      pctAbovePoc lv vs q = ((lv.zip vs).map (fun p => if p.1 > q then p.2 else 0)).sum / vols.sum := by
    intro lv vs q h1 h2
    unfold pctAbovePoc
    simp only [h1, foldl_above, zero_add]
    rw [if_neg (not_le.mpr hs)]
    by_cases h : ((lv.zip vs).map (fun p => if p.1 > q then p.2 else 0)).sum ≤ 0
    · rw [if_pos h, le_antisymm h (nn q _ h2), zero_div]
    · rw [if_neg h]
  rw [key levels vols poc rfl hz, key (mirrorLevels levels) vols.reverse (-poc) (List.sum_reverse _) (by
    rw [zip_mirror levels vols hl]
    intro p hp
    rw [List.mem_reverse, List.mem_map] at hp
    obtain ⟨q, hq, rfl⟩ := hp
    exact hz q hq), zip_mirror levels vols hl, List.map_reverse, List.sum_reverse, List.map_map, ← add_div, ← add_div, div_eq_one_iff_eq hs.ne']
  have hv : vols = (levels.zip vols).map (·.2) := by
    rw [List.map_snd_zip hl.ge]
  conv_rhs => rw [hv]
  generalize levels.zip vols = l
  induction l with
  | nil => simp
  | cons x l ih =>
    simp only [List.map_cons, List.sum_cons, Function.comp] at ih ⊢
    rw [← ih]
    rcases lt_trichotomy x.1 poc with h | h | h
    · rw [if_neg (by omega), if_pos (by omega), if_neg (by omega)]; ring
    · rw [if_neg (by omega), if_neg (by omega), if_pos h]; ring
    · rw [if_pos (by omega), if_neg (by omega), if_neg (by omega)]; ring

example : pctAbovePoc [10, 11, 12] ([1, 6, 3] : List ℚ) 11 = 3 / 10 ∧ mirrorLevels [10, 11, 12] = [-12, -11, -10] ∧
    pctAbovePoc [-12, -11, -10] ([3, 6, 1] : List ℚ) (-11) = 1 / 10 := by decide +kernel

theorem argmax_of_unique (l : List K) (p : Nat) (hp : p < l.length) (hmax : ∀ j, j < l.length → j ≠ p → l.getD j 0 < l.getD p 0) :
    argmax l = p := by
  obtain ⟨b, h1, h2, -⟩ := argmax_spec l (by rintro rfl; simp at hp)
  by_contra hc
  obtain ⟨hlt, hb⟩ := List.getElem?_eq_some_iff.mp h1
  have := hmax _ hlt hc
  rw [List.getD_eq_getElem _ _ hlt, hb, List.getD_eq_getElem _ _ hp] at this
  exact absurd this (not_lt.mpr (h2 p _ (List.getElem?_eq_getElem hp)))

/-- **C170 (footprint).** On the mirrored market (sides exchanged, price axis reversed) the volume point of a footprint is
negated if one level has more volume than every other, and the concentration of the volume is the same. -/
theorem C170_footprint (levels : List Int) (buy sell : List K) (m : K) (p : Nat) (h1 : buy.length = sell.length)
    (h2 : levels.length = buy.length) (hp : p < buy.length)
    (hmax : ∀ j, j < buy.length → j ≠ p → buy.getD j 0 + sell.getD j 0 < buy.getD p 0 + sell.getD p 0) :
    (footprintFeatures (mirrorLevels levels) sell.reverse buy.reverse m).cot = -(footprintFeatures levels buy sell m).cot ∧
    (footprintFeatures (mirrorLevels levels) sell.reverse buy.reverse m).vpGini = (footprintFeatures levels buy sell m).vpGini := by
  have ht : List.zipWith (· + ·) sell.reverse buy.reverse = (List.zipWith (· + ·) buy sell).reverse := by
    rw [← List.reverse_zipWith h1.symm, List.zipWith_comm]
    congr 2
    funext a b
    exact add_comm _ _
  have hlen : (List.zipWith (· + ·) buy sell).length = buy.length := by rw [List.length_zipWith, ← h1, min_self]
  have hget : ∀ j, j < buy.length → (List.zipWith (· + ·) buy sell).getD j 0 = buy.getD j 0 + sell.getD j 0 := by
    intro j hj
    rw [List.getD_eq_getElem _ _ (by omega), List.getElem_zipWith, List.getD_eq_getElem _ _ hj, List.getD_eq_getElem _ _ (by omega)]
  have a1 : argmax (List.zipWith (· + ·) buy sell) = p := by
    refine argmax_of_unique _ p (by omega) ?_
    intro j hj hne
    rw [hget j (by omega), hget p hp]
    exact hmax j (by omega) hne
  have a2 : argmax (List.zipWith (· + ·) buy sell).reverse = buy.length - 1 - p := by
    refine argmax_of_unique _ _ (by rw [List.length_reverse]; omega) ?_
    intro j hj hne
    rw [List.length_reverse] at hj
    rw [getD_reverse_of_lt _ _ _ hj, getD_reverse_of_lt _ _ _ (by omega), hlen, hget _ (by omega), hget _ (by omega),
      show buy.length - 1 - (buy.length - 1 - p) = p by omega]
    exact hmax _ (by omega) (by omega)
  constructor
  · simp only [footprintFeatures, ht, a1, a2]
    rw [mirrorLevels_getD _ _ (by omega)]
    congr 2
    omega
  · simp only [footprintFeatures, ht]
    unfold profileStats
    simp only [List.sum_reverse, List.map_reverse, show (mirrorLevels levels).length = levels.length by
      unfold mirrorLevels; rw [List.length_reverse, List.length_map]]
    split <;> rfl

example : (footprintFeatures [10, 11, 12] [5, 9, (1 : ℚ)] [2, 1, 4] 3).cot = 11 ∧ mirrorLevels [10, 11, 12] = [-12, -11, -10] ∧
    (footprintFeatures [-12, -11, -10] [4, 1, (2 : ℚ)] [1, 9, 5] 3).cot = -11 ∧
    (footprintFeatures [-12, -11, -10] [4, 1, (2 : ℚ)] [1, 9, 5] 3).vpGini = 1 - (49 + 100 + 25) / 484 := by decide +kernel

end FinML

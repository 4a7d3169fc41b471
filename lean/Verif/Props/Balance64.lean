/-
C135: return attribution, combination and class balance of sample weights in float64.
-/
import Verif.Model.Float64Balance
import Verif.Props.Weights
import Verif.Props.Oscillators64

set_option linter.unusedSectionVars false

namespace FinML

/-! ### Attribution -/

/-- The error of a rounded sum relative to the sum of absolute values. -/
theorem sum64_abs_error (l : List ℚ) : |sum64 l - l.sum| ≤ ((1 + 1 / 2 ^ 53) ^ l.length - 1) * (l.map (fun x => |x|)).sum ∧
    |l.sum| ≤ (l.map (fun x => |x|)).sum := by
  induction l using List.reverseRecOn with
  | nil => simp [sum64]
  | append_singleton l x ih =>
    obtain ⟨ih, ih2⟩ := ih
    rw [sum64_append, List.sum_append, List.sum_singleton, List.map_append, List.sum_append, List.map_singleton, List.sum_singleton,
      List.length_append, List.length_singleton]
    have e := f64_relErr (sum64 l + x)
    have p1 : (1 : ℚ) ≤ (1 + 1 / 2 ^ 53) ^ l.length := one_le_pow₀ (by norm_num)
    rw [pow_succ]
    generalize (1 + 1 / 2 ^ 53 : ℚ) ^ l.length = P at *
    generalize (l.map (fun x => |x|)).sum = A at *
    generalize sum64 l = s at *
    generalize l.sum = S at *
    have hA : 0 ≤ A := (abs_nonneg S).trans ih2
    have hx := abs_nonneg x
    constructor
    · have t1 : |s + x| ≤ |s - S| + |S| + |x| := by
        have a := abs_add_le (s - S + S) x
        have b := abs_add_le (s - S) S
        rw [sub_add_cancel] at a b
        linarith
      have t2 := abs_add_le (f64 (s + x) - (s + x)) (s - S)
      rw [show f64 (s + x) - (s + x) + (s - S) = f64 (s + x) - (S + x) by ring] at t2
      have t3 : |s + x| / 2 ^ 53 ≤ ((P - 1) * A + A + |x|) / 2 ^ 53 := div_le_div_of_nonneg_right (by linarith) (by norm_num)
      have f : (P * (1 + 1 / 2 ^ 53) - 1) * (A + |x|) - ((P - 1) * A + ((P - 1) * A + A + |x|) / 2 ^ 53) =
          (P - 1) * (1 + 1 / 2 ^ 53) * |x| := by ring
      have g : 0 ≤ (P - 1) * (1 + 1 / 2 ^ 53) * |x| := mul_nonneg (mul_nonneg (by linarith) (by norm_num)) hx
      linarith
    · have := abs_add_le S x
      linarith

/-- The attributed returns of one label. -/
def attrTerms (lr : List (Option ℚ)) (conc : List Int) (s : Nat × Nat) : List ℚ :=
  (List.range' s.1 (s.2 + 1 - s.1)).filterMap (fun j =>
    match lr.getD j none with
    | none => none
    | some r => if conc.getD j 0 > 0 then some (r / ((conc.getD j 0 : Int) : ℚ)) else none)

theorem attrTerms64_eq (lr : List (Option ℚ)) (conc : List Int) (s : Nat × Nat) :
    attrTerms64 lr conc s = (attrTerms lr conc s).map f64 ∧ attrSum lr conc s = (attrTerms lr conc s).sum ∧
    (attrTerms lr conc s).length ≤ s.2 + 1 - s.1 := by
  unfold attrTerms64 attrTerms attrSum
  refine ⟨?_, ?_, ?_⟩
  · rw [List.map_filterMap]
    congr 1
    funext j
    cases lr.getD j none with
    | none => rfl
    | some r => simp only; split <;> rfl
  · generalize List.range' s.1 (s.2 + 1 - s.1) = l
    induction l with
    | nil => rfl
    | cons j l ih =>
      rw [List.map_cons, List.sum_cons, ih, List.filterMap_cons]
      cases lr.getD j none with
      | none => simp
      | some r =>
        simp only
        by_cases h : conc.getD j 0 > 0
        · rw [if_pos h, if_pos h]; rw [List.sum_cons]
        · rw [if_neg h, if_neg h]; rw [zero_add]
  · refine (List.length_filterMap_le _ _).trans ?_
    rw [List.length_range']

/-- **C135.** The attribution of a label over `m` bars is off by at most `((1 + 2^-53)^(m+1) - 1)` times the sum of its absolute attributed returns. -/
theorem C135_attribution_error (lr : List (Option ℚ)) (conc : List Int) (s : Nat × Nat) :
    |attribution64 lr conc s - abs (attrSum lr conc s)| ≤
      ((1 + 1 / 2 ^ 53) ^ (s.2 + 1 - s.1 + 1) - 1) * ((attrTerms lr conc s).map (fun x => |x|)).sum := by
  obtain ⟨e1, e2, e3⟩ := attrTerms64_eq lr conc s
  unfold attribution64
  rw [e1, e2]
  refine (abs_abs_sub_abs_le _ _).trans ?_
  generalize attrTerms lr conc s = l at *
  have a := (sum64_abs_error (l.map f64)).1
  have b : |(l.map f64).sum - l.sum| ≤ 1 / 2 ^ 53 * (l.map (fun x => |x|)).sum ∧
      ((l.map f64).map (fun x => |x|)).sum ≤ (1 + 1 / 2 ^ 53) * (l.map (fun x => |x|)).sum := by
    clear a e1 e2 e3
    induction l with
    | nil => simp
    | cons x l ih =>
      obtain ⟨i1, i2⟩ := ih
      have r := f64_relErr x
      simp only [List.map_cons, List.sum_cons]
      constructor
      · have t := abs_add_le (f64 x - x) ((l.map f64).sum - l.sum)
        rw [sub_add_sub_comm] at t
        have : |x| / 2 ^ 53 = 1 / 2 ^ 53 * |x| := by ring
        linarith
      · have t := abs_add_le (f64 x - x) x
        rw [sub_add_cancel] at t
        have : |x| / 2 ^ 53 = 1 / 2 ^ 53 * |x| := by ring
        linarith
  rw [List.length_map] at a
  have hA : 0 ≤ (l.map (fun x => |x|)).sum := List.sum_nonneg (by
    intro x hx; rw [List.mem_map] at hx; obtain ⟨y, _, rfl⟩ := hx; exact abs_nonneg y)
  have hA' := (abs_nonneg _).trans (sum64_abs_error (l.map f64)).2
  have p1 : (1 : ℚ) ≤ (1 + 1 / 2 ^ 53) ^ l.length := one_le_pow₀ (by norm_num)
  have p2 : (1 + 1 / 2 ^ 53 : ℚ) ^ l.length ≤ (1 + 1 / 2 ^ 53) ^ (s.2 + 1 - s.1) := pow_le_pow_right₀ (by norm_num) e3
  rw [pow_succ]
  generalize (1 + 1 / 2 ^ 53 : ℚ) ^ l.length = P at *
  generalize (1 + 1 / 2 ^ 53 : ℚ) ^ (s.2 + 1 - s.1) = Q at *
  generalize (l.map (fun x => |x|)).sum = A at *
  generalize ((l.map f64).map (fun x => |x|)).sum = A' at *
  have c : (P - 1) * A' ≤ (Q - 1) * ((1 + 1 / 2 ^ 53) * A) :=
    mul_le_mul (by linarith) b.2 hA' (by linarith)
  have t := abs_add_le (sum64 (l.map f64) - (l.map f64).sum) ((l.map f64).sum - l.sum)
  rw [sub_add_sub_cancel] at t
  have f : (Q * (1 + 1 / 2 ^ 53) - 1) * A = (Q - 1) * ((1 + 1 / 2 ^ 53) * A) + 1 / 2 ^ 53 * A := by ring
  linarith [b.1]

example : attribution64 [none, some 1, some (-1)] [1, 2, 3] (0, 2) = f64 (1 / 2 - f64 (1 / 3)) := by decide +kernel

/-- **C135.** If the returns of a label all have the same sign there is no cancellation: its attribution is within `m + 1` roundings. -/
theorem C135_attribution_monotone (lr : List (Option ℚ)) (conc : List Int) (s : Nat × Nat) (h : ∀ x ∈ attrTerms lr conc s, 0 ≤ x) :
    Rounds (s.2 + 1 - s.1 + 1) |attrSum lr conc s| (attribution64 lr conc s) := by
  obtain ⟨e1, e2, e3⟩ := attrTerms64_eq lr conc s
  unfold attribution64
  rw [e1, e2]
  generalize attrTerms lr conc s = l at *
  have h0 : 0 ≤ l.sum := List.sum_nonneg h
  have r1 : Rounds 1 l.sum (l.map f64).sum := by
    have := rounds_sum (k := 1) id f64 l (fun x hx => rounds_f64 (h x hx))
    simpa using this
  have nn : ∀ x ∈ l.map f64, 0 ≤ x := by
    intro x hx; rw [List.mem_map] at hx; obtain ⟨y, hy, rfl⟩ := hx; exact f64_nonneg (h y hy)
  have r2 := (r1.trans h0 (sum64_rounds _ nn)).mono h0 (show 1 + (l.map f64).length ≤ s.2 + 1 - s.1 + 1 by rw [List.length_map]; omega)
  rwa [abs_of_nonneg h0, abs_of_nonneg (sum64_nonneg _ nn)]

example : (∀ x ∈ attrTerms [none, some 1, some 1] [1, 2, 3] (0, 2), 0 ≤ x) ∧ attrTerms [none, some 1, some 1] [1, 2, 3] (0, 2) = [1 / 2, 1 / 3] := by
  decide +kernel

/-- **C135, violation.** A label whose attributed returns cancel has weight 0 and cannot be normalised; in float64 ten tenths do not make one, the weight
is positive and normalises to 1. -/
theorem C135_attribution_noise :
    let lr := List.replicate 10 (some 1) ++ [some (-1)]
    let conc := List.replicate 10 10 ++ [1]
    attrSum lr conc (0, 10) = (0 : ℚ) ∧ 0 < attribution64 lr conc (0, 10) ∧
      (normalise64 (.leaf (attribution64 lr conc (0, 10)))).toOption = some [1] := by
  intro lr conc
  exact ⟨by decide +kernel, by decide +kernel, by decide +kernel⟩

/-! ### Class balance -/

/-- Entry by entry within `k` roundings. -/
def RoundsAll (k : Nat) (xs ys : List ℚ) : Prop := List.Forall₂ (Rounds k) xs ys

theorem RoundsAll.refl (xs : List ℚ) : RoundsAll 0 xs xs := List.forall₂_same.mpr (fun x _ => Rounds.refl x)

theorem RoundsAll.sum {k : Nat} {xs ys : List ℚ} (h : RoundsAll k xs ys) : Rounds k xs.sum ys.sum := by
  induction h with
  | nil => simp [Rounds]
  | cons a _ ih => rw [List.sum_cons, List.sum_cons]; exact a.add ih

theorem RoundsAll.nonneg {k : Nat} {xs ys : List ℚ} (h : RoundsAll k xs ys) (hx : ∀ x ∈ xs, 0 ≤ x) : ∀ y ∈ ys, 0 ≤ y := by
  induction h with
  | nil => simp
  | cons a _ ih =>
    intro y hy
    rcases List.mem_cons.mp hy with rfl | hy
    · exact a.nonneg (hx _ (by simp))
    · exact ih (fun x h => hx x (by simp [h])) y hy

theorem RoundsAll.mono {k j : Nat} {xs ys : List ℚ} (h : RoundsAll k xs ys) (hx : ∀ x ∈ xs, 0 ≤ x) (hk : k ≤ j) : RoundsAll j xs ys := by
  induction h with
  | nil => exact .nil
  | cons a _ ih => exact .cons (a.mono (hx _ (by simp)) hk) (ih (fun x h => hx x (by simp [h])))

theorem RoundsAll.sum64 {k : Nat} {xs ys : List ℚ} (h : RoundsAll k xs ys) (hx : ∀ x ∈ xs, 0 ≤ x) :
    Rounds (k + xs.length) xs.sum (FinML.sum64 ys) := by
  have := h.sum.trans (List.sum_nonneg hx) (sum64_rounds ys (h.nonneg hx))
  rwa [← List.Forall₂.length_eq h] at this

theorem RoundsAll.byLabel {k : Nat} {xs ys : List ℚ} (h : RoundsAll k xs ys) (p : Int → Bool) : ∀ labels : List Int,
    RoundsAll k (((labels.zip xs).filter (fun q => p q.1)).map (·.2)) (((labels.zip ys).filter (fun q => p q.1)).map (·.2)) := by
  induction h with
  | nil => intro labels; simp [RoundsAll]
  | cons a _ ih =>
    intro labels
    cases labels with
    | nil => simp [RoundsAll]
    | cons l ls =>
      rw [List.zip_cons_cons, List.zip_cons_cons]
      by_cases hp : p l = true
      · rw [List.filter_cons_of_pos (by exact hp), List.filter_cons_of_pos (by exact hp)]
        exact .cons a (ih ls)
      · rw [List.filter_cons_of_neg (by exact hp), List.filter_cons_of_neg (by exact hp)]
        exact ih ls

theorem byLabel_facts (labels : List Int) (W : List ℚ) (p : Int → Bool) (hW : ∀ x ∈ W, 0 ≤ x) :
    (∀ x ∈ ((labels.zip W).filter (fun q => p q.1)).map (·.2), 0 ≤ x) ∧ (((labels.zip W).filter (fun q => p q.1)).map (·.2)).length ≤ W.length := by
  constructor
  · intro x hx
    rw [List.mem_map] at hx
    obtain ⟨q, hq, rfl⟩ := hx
    exact hW _ (List.of_mem_zip (List.mem_filter.mp hq).1).2
  · rw [List.length_map]
    refine (List.length_filter_le _ _).trans ?_
    rw [List.length_zip]
    omega

theorem classSums64_rounds {k : Nat} {W w : List ℚ} (h : RoundsAll k W w) (hW : ∀ x ∈ W, 0 ≤ x) (classes labels : List Int) :
    RoundsAll (k + W.length) (classSums classes labels W) (classSums64 classes labels w) ∧ ∀ x ∈ classSums classes labels W, 0 ≤ x := by
  unfold classSums classSums64
  constructor
  · unfold RoundsAll
    rw [List.forall₂_map_left_iff, List.forall₂_map_right_iff, List.forall₂_same]
    intro c _
    obtain ⟨f1, f2⟩ := byLabel_facts labels W (fun l => searchLeft classes l = c) hW
    exact ((h.byLabel (fun l => searchLeft classes l = c) labels).sum64 f1).mono (List.sum_nonneg f1) (by omega)
  · intro x hx
    rw [List.mem_map] at hx
    obtain ⟨c, _, rfl⟩ := hx
    exact List.sum_nonneg (byLabel_facts labels W (fun l => searchLeft classes l = c) hW).1

theorem RoundsAll.map {k j : Nat} {xs ys : List ℚ} (h : RoundsAll k xs ys) (f g : ℚ → ℚ) (hx : ∀ x ∈ xs, 0 ≤ x)
    (hf : ∀ x y, 0 ≤ x → Rounds k x y → Rounds j (f x) (g y)) : RoundsAll j (xs.map f) (ys.map g) := by
  induction h with
  | nil => exact .nil
  | cons a _ ih => exact .cons (hf _ _ (hx _ (by simp)) a) (ih (fun x h => hx x (by simp [h])))

theorem RoundsAll.getD {k : Nat} {xs ys : List ℚ} (h : RoundsAll k xs ys) : ∀ i, Rounds k (xs.getD i 0) (ys.getD i 0) := by
  induction h with
  | nil => intro i; simp [Rounds]
  | cons a _ ih =>
    intro i
    cases i with
    | zero => simpa using a
    | succ i => simpa using ih i

theorem classBalance64_rounds {k : Nat} {W w : List ℚ} (h : RoundsAll k W w) (hW : ∀ x ∈ W, 0 ≤ x) (labels : List Int) :
    RoundsAll (3 * (k + W.length) + (uniqueLabels labels).length + 3) (classBalance labels W).2.1 (classBalance64 labels w).1 ∧
    RoundsAll (4 * k + 3 * W.length + (uniqueLabels labels).length + 4) (classBalance labels W).2.2.2 (classBalance64 labels w).2 ∧
    (∀ x ∈ (classBalance labels W).2.1, 0 ≤ x) ∧ ∀ x ∈ (classBalance labels W).2.2.2, 0 ≤ x := by
  obtain ⟨hs, hs0⟩ := classSums64_rounds h hW (uniqueLabels labels) labels
  unfold classBalance classBalance64
  simp only
  have hlen : (classSums (uniqueLabels labels) labels W).length = (uniqueLabels labels).length := by simp [classSums]
  have ht := hs.sum64 hs0
  rw [hlen] at ht
  have hT : 0 ≤ (classSums (uniqueLabels labels) labels W).sum := List.sum_nonneg hs0
  generalize classSums (uniqueLabels labels) labels W = S at *
  generalize classSums64 (uniqueLabels labels) labels w = S' at *
  generalize S.sum = T at *
  generalize sum64 S' = T' at *
  have hc : (0 : ℚ) ≤ (uniqueLabels labels).length := Nat.cast_nonneg _
  have cwpos : ∀ x ∈ S.map (fun s => if s > 0 then T / (((uniqueLabels labels).length : ℚ) * s) else 0), 0 ≤ x := by
    intro x hx
    rw [List.mem_map] at hx
    obtain ⟨s, hs, rfl⟩ := hx
    split
    · exact div_nonneg hT (mul_nonneg hc (hs0 s hs))
    · exact le_rfl
  have cw : RoundsAll (3 * (k + W.length) + (uniqueLabels labels).length + 3)
      (S.map (fun s => if s > 0 then T / (((uniqueLabels labels).length : ℚ) * s) else 0))
      (S'.map (fun s => if s > 0 then f64 (T' / f64 (((uniqueLabels labels).length : ℚ) * s)) else 0)) := by
    rcases Nat.eq_zero_or_pos (uniqueLabels labels).length with h0 | hp
    · rw [h0] at hlen
      rw [List.length_eq_zero_iff] at hlen
      subst hlen
      cases hs
      exact .nil
    have hp : (0 : ℚ) < (uniqueLabels labels).length := Nat.cast_pos.mpr hp
    refine hs.map _ _ hs0 (fun x y hx hxy => ?_)
    by_cases h0 : x > 0
    · rw [if_pos h0, if_pos ((hxy.pos_iff hx).mpr h0)]
      have hd := (hxy.mul_left hc).f64 (mul_nonneg hc hx)
      have := (ht.quot hT (mul_pos hp h0) hd).f64 (div_nonneg hT (mul_nonneg hc hx))
      exact this.mono (div_nonneg hT (mul_nonneg hc hx)) (by omega)
    · rw [if_neg h0, if_neg (fun h => h0 ((hxy.pos_iff hx).mp h))]
      simp [Rounds]
  refine ⟨cw, ?_, cwpos, ?_⟩
  · generalize List.map (fun s => if s > 0 then T / (((uniqueLabels labels).length : ℚ) * s) else 0) S = C at *
    generalize List.map (fun s => if s > 0 then f64 (T' / f64 (((uniqueLabels labels).length : ℚ) * s)) else 0) S' = C' at *
    have key : ∀ (f : Int → Nat) (n : Nat), 4 * k + 3 * W.length + (uniqueLabels labels).length + 4 = n → ∀ labels' : List Int,
        RoundsAll n (List.zipWith (fun l x => x * C.getD (f l) 0) labels' W) (List.zipWith (fun l x => f64 (x * C'.getD (f l) 0)) labels' w) := by
      intro f n hn
      have hstep : ∀ l x y, 0 ≤ x → Rounds k x y → Rounds n (x * C.getD (f l) 0) (f64 (y * C'.getD (f l) 0)) := by
        intro l x y hx hxy
        have g0 := getD_nonneg cwpos (f l)
        have := (hxy.mul hx g0 (cw.getD (f l))).f64 (mul_nonneg hx g0)
        exact this.mono (mul_nonneg hx g0) (by omega)
      clear hn hs ht cw
      induction h with
      | nil => intro labels'; simp [RoundsAll]
      | cons a _ ih =>
        intro labels'
        cases labels' with
        | nil => simp [RoundsAll]
        | cons l ls => exact .cons (hstep l _ _ (hW _ (by simp)) a) (ih (fun x h => hW x (by simp [h])) ls)
    exact key _ _ rfl labels
  · intro x hx
    obtain ⟨l, _, y, hy, rfl⟩ := mem_zipWith_exists _ _ _ _ hx
    exact mul_nonneg (hW y hy) (getD_nonneg cwpos _)

/-- **C135.** For nonnegative base weights every final weight of the class balance is within `3 n + c + 4` roundings of the exact one, for `n` samples in `c` classes
(the roundings of a divisor count twice), and every class weight within `3 n + c + 3`. In particular the same weights vanish. -/
theorem C135_class_balance (labels : List Int) (w : List ℚ) (hw : ∀ x ∈ w, 0 ≤ x) :
    List.Forall₂ (Rounds (3 * w.length + labels.dedup.length + 3)) (classBalance labels w).2.1 (classBalance64 labels w).1 ∧
    List.Forall₂ (Rounds (3 * w.length + labels.dedup.length + 4)) (classBalance labels w).2.2.2 (classBalance64 labels w).2 ∧
    List.Forall₂ (fun x y => 0 ≤ y ∧ (y = 0 ↔ x = 0)) (classBalance labels w).2.2.2 (classBalance64 labels w).2 := by
  obtain ⟨h1, h2, h3, h4⟩ := classBalance64_rounds (RoundsAll.refl w) hw labels
  have hlen : (uniqueLabels labels).length = labels.dedup.length := List.length_insertionSort _ _
  rw [hlen, Nat.zero_add] at h1
  rw [hlen, Nat.mul_zero, Nat.zero_add] at h2
  refine ⟨h1, h2, ?_⟩
  generalize (classBalance labels w).2.2.2 = X at *
  generalize (classBalance64 labels w).2 = Y at *
  clear h1 h3
  induction h2 with
  | nil => exact .nil
  | cons a _ ih =>
    have hx := h4 _ List.mem_cons_self
    refine .cons ⟨a.nonneg hx, ?_⟩ (ih (fun x h => h4 x (by simp [h])))
    have := a.pos_iff hx
    constructor
    · intro hy; by_contra hne
      exact absurd (this.mpr (lt_of_le_of_ne hx (Ne.symm hne))) (by rw [hy]; exact lt_irrefl 0)
    · intro hx0; by_contra hne
      exact absurd (this.mp (lt_of_le_of_ne (a.nonneg hx) (Ne.symm hne))) (by rw [hx0]; exact lt_irrefl 0)

example : (classBalance64 [1, -1, 1, 1] [1, 1, 1, 1]).2 = [f64 (2 / 3), 2, f64 (2 / 3), f64 (2 / 3)] := by decide +kernel

/-- **C135.** After balancing in float64 every class with positive base weight has a total within `3 n + c + 4` roundings of the grand total over the number
of classes. -/
theorem C135_equal_classes (labels : List Int) (w : List ℚ) (hl : labels.length = w.length) (hw : ∀ x ∈ w, 0 ≤ x) (c : Int) (hc : c ∈ labels)
    (hpos : 0 < classTotal c labels w) :
    Rounds (3 * w.length + labels.dedup.length + 4) (w.sum / (labels.dedup.length : ℚ)) (classTotal c labels (classBalance64 labels w).2) := by
  rw [← C30_equal_classes labels w hl c hc hpos]
  have h : RoundsAll _ _ _ := (C135_class_balance labels w hw).2.1
  exact (h.byLabel (fun l => l = c) labels).sum

example : (∀ x ∈ [(1 : ℚ), 2, 3], 0 ≤ x) ∧ 0 < classTotal 1 [1, -1, 1] [(1 : ℚ), 2, 3] := by decide +kernel

/-- **C135, violation.** The class totals are not equal in float64: a class of five against a class of one. -/
theorem C135_classes_not_equal :
    let labels := [1, 1, 1, 1, 1, 0, -1]
    let w := (classBalance64 labels [1, 1, 1, 1, 1, 1, 1]).2
    classTotal 1 labels w ≠ classTotal 0 labels w ∧ classTotal 0 labels w = classTotal (-1) labels w := by
  intro labels w
  exact ⟨by decide +kernel, by decide +kernel⟩

/-! ### The combination -/

/-- The exact product of decay weights, information weights and vertical-touch weights. -/
def combineExact {K : Type} [Field K] (d i : List K) (vtw : Option (List K)) : List K :=
  match vtw with
  | none => List.zipWith (· * ·) d i
  | some v => List.zipWith (· * ·) (List.zipWith (· * ·) d i) v

/-- The exact combination, normalised and balanced. -/
def finalFrom {K : Type} [Field K] [LinearOrder K] (d i : List K) (vtw : Option (List K)) (labels : Option (List Int)) : Except String (List K) :=
  let c := combineExact d i vtw
  let mean := c.sum / (c.length : K)
  if mean ≤ 0 then .error "Mean of combined weights is zero or negative, cannot normalize."
  else
    let base := c.map (fun x => x / mean)
    match labels with
    | none => .ok base
    | some l => .ok (classBalance l base).2.2.2

theorem finalWeights_from (u : List ℚ) (lw : ℚ) (vtw : Option (List ℚ)) (labels : Option (List Int)) (d : List ℚ) (h : timeDecay u lw = .ok d) :
    finalWeights u lw none vtw labels = finalFrom d u vtw labels ∧
    ∀ a : List ℚ, 0 < a.sum → finalWeights u lw (some a) vtw labels = finalFrom d (a.map (fun x => x * (u.length : ℚ) / a.sum)) vtw labels := by
  unfold finalWeights
  rw [h]
  refine ⟨rfl, fun a ha => ?_⟩
  simp only
  rw [if_neg (not_le.mpr ha)]
  rfl

/-- **C135.** Normalised attributions: the same error, or each within `2 depth + 2` roundings, whatever order pandas adds them in. -/
theorem C135_info (t : SumTree) (h : ∀ x ∈ t.leaves, 0 ≤ x) :
    (t.leaves.sum ≤ 0 → infoAttr64 t = .error "Return attribution sum is zero or negative, cannot normalize.") ∧
    (0 < t.leaves.sum → ∃ y, infoAttr64 t = .ok y ∧
      List.Forall₂ (Rounds (2 * t.depth + 2)) (t.leaves.map (fun x => x * (t.leaves.length : ℚ) / t.leaves.sum)) y) := by
  have hs : Rounds t.depth t.leaves.sum t.eval64 := C98_sum_any_order t h
  have h0 : 0 ≤ t.leaves.sum := List.sum_nonneg h
  unfold infoAttr64
  constructor
  · intro hz
    rw [if_pos (not_lt.mp (fun hp => absurd ((hs.pos_iff h0).mp hp) (not_lt.mpr hz)))]
  · intro hp
    rw [if_neg (not_le.mpr ((hs.pos_iff h0).mpr hp))]
    refine ⟨_, rfl, ?_⟩
    rw [List.forall₂_map_left_iff, List.forall₂_map_right_iff, List.forall₂_same]
    intro x hx
    have hn : (0 : ℚ) ≤ x * (t.leaves.length : ℚ) := mul_nonneg (h x hx) (Nat.cast_nonneg _)
    exact (((rounds_f64 hn).quot hn hp hs).f64 (div_nonneg hn h0)).mono (div_nonneg hn h0) (by omega)

example : infoAttr64 (.ofList [1, 2]) = .ok [f64 (2 / 3), f64 (4 / 3)] ∧ (infoAttr64 (.ofList [0, 0])).toOption = none := by decide +kernel

theorem zipWith_mul_rounds {a b n : Nat} (hn : a + b + 1 ≤ n) {X x : List ℚ} (hx : RoundsAll a X x) (hX : ∀ q ∈ X, 0 ≤ q) :
    ∀ {Y y : List ℚ}, RoundsAll b Y y → (∀ q ∈ Y, 0 ≤ q) →
    RoundsAll n (List.zipWith (· * ·) X Y) (List.zipWith (fun p q => f64 (p * q)) x y) := by
  induction hx with
  | nil => intro Y y _ _; simp [RoundsAll]
  | cons r _ ih =>
    intro Y y hy hY
    cases hy with
    | nil => simp [RoundsAll]
    | cons r' t =>
      have g1 := hX _ List.mem_cons_self
      have g2 := hY _ List.mem_cons_self
      exact .cons (((r.mul g1 g2 r').f64 (mul_nonneg g1 g2)).mono (mul_nonneg g1 g2) hn)
        (ih (fun q h => hX q (by simp [h])) t (fun q h => hY q (by simp [h])))

theorem zipWith_mul_nonneg (X Y : List ℚ) (hX : ∀ q ∈ X, 0 ≤ q) (hY : ∀ q ∈ Y, 0 ≤ q) : ∀ q ∈ List.zipWith (· * ·) X Y, 0 ≤ q := by
  intro q hq
  obtain ⟨a, ha, b, hb, rfl⟩ := mem_zipWith_exists _ _ _ _ hq
  exact mul_nonneg (hX a ha) (hY b hb)

/-- **C135.** Final weights from the same decay weights `d`: with information weights within `a` roundings and any order `t` of the mean, float64 fails exactly
when the exact combination does, and otherwise every unbalanced weight is within `3 a + 2 depth + 9` roundings. -/
theorem C135_final (d I i : List ℚ) (vtw : Option (List ℚ)) (labels : Option (List Int)) (t : SumTree) (a : Nat)
    (ht : t.leaves = combine64 d i vtw) (hd : ∀ x ∈ d, 0 ≤ x) (hI : ∀ x ∈ I, 0 ≤ x) (hi : List.Forall₂ (Rounds a) I i)
    (hv : ∀ v, vtw = some v → ∀ x ∈ v, 0 ≤ x) :
    (∃ e, finalFrom d I vtw labels = .error e ∧ finalFrom64 t labels = .error e) ∨
    (∃ x y, finalFrom d I vtw labels = .ok x ∧ finalFrom64 t labels = .ok y ∧
      match labels with
      | none => List.Forall₂ (Rounds (3 * a + 2 * t.depth + 9)) x y
      | some l => List.Forall₂ (Rounds (4 * (3 * a + 2 * t.depth + 9) + 3 * t.leaves.length + l.dedup.length + 4)) x y) := by
  have hi : RoundsAll a I i := hi
  -- the products
  obtain ⟨C, hC, hC0, hCr⟩ : ∃ C, combineExact d I vtw = C ∧
      (∀ x ∈ C, 0 ≤ x) ∧ RoundsAll (a + 2) C t.leaves := by
    have p1 : RoundsAll (a + 1) (List.zipWith (· * ·) d I) (List.zipWith (fun p q => f64 (p * q)) d i) :=
      zipWith_mul_rounds (by omega) (RoundsAll.refl d) hd hi hI
    have n1 := zipWith_mul_nonneg d I hd hI
    rw [ht]
    unfold combine64 combineExact
    cases vtw with
    | none => exact ⟨_, rfl, n1, p1.mono n1 (by omega)⟩
    | some v =>
      exact ⟨_, rfl, zipWith_mul_nonneg _ v n1 (hv v rfl), zipWith_mul_rounds (by omega) p1 n1 (RoundsAll.refl v) (hv v rfl)⟩
  have hl := List.Forall₂.length_eq hCr
  have t0 := hCr.nonneg hC0
  have hs : Rounds (a + 2 + t.depth) C.sum t.eval64 := hCr.sum.trans (List.sum_nonneg hC0) (C98_sum_any_order t t0)
  have hn : (0 : ℚ) ≤ C.length := Nat.cast_nonneg _
  have hm0 : 0 ≤ C.sum / (C.length : ℚ) := div_nonneg (List.sum_nonneg hC0) hn
  have hm : Rounds (a + 2 + t.depth + 1) (C.sum / (C.length : ℚ)) (mean64 t) := by
    unfold mean64
    rw [← hl]
    exact (hs.div hn).f64 hm0
  unfold finalFrom finalFrom64
  simp only
  rw [hC]
  by_cases hz : C.sum / (C.length : ℚ) ≤ 0
  · left
    rw [if_pos hz, if_pos (not_lt.mp (fun hp => absurd ((hm.pos_iff hm0).mp hp) (not_lt.mpr hz)))]
    exact ⟨_, rfl, rfl⟩
  · right
    have hp := not_le.mp hz
    rw [if_neg hz, if_neg (not_le.mpr ((hm.pos_iff hm0).mpr hp))]
    have hb : RoundsAll (3 * a + 2 * t.depth + 9) (C.map (fun x => x / (C.sum / (C.length : ℚ)))) (t.leaves.map (fun x => f64 (x / mean64 t))) := by
      refine hCr.map _ _ hC0 (fun x y hx hxy => ?_)
      exact ((hxy.quot hx hp hm).f64 (div_nonneg hx hm0)).mono (div_nonneg hx hm0) (by omega)
    have hb0 : ∀ x ∈ C.map (fun x => x / (C.sum / (C.length : ℚ))), 0 ≤ x := by
      intro x hx
      rw [List.mem_map] at hx
      obtain ⟨y, hy, rfl⟩ := hx
      exact div_nonneg (hC0 y hy) hm0
    cases labels with
    | none => exact ⟨_, _, rfl, rfl, hb⟩
    | some l =>
      refine ⟨_, _, rfl, rfl, ?_⟩
      have := (classBalance64_rounds hb hb0 l).2.1
      have hlen : (uniqueLabels l).length = l.dedup.length := List.length_insertionSort _ _
      rw [List.length_map, hlen] at this
      rw [← hl]
      exact this

example : finalFrom64 (.ofList (combine64 [1, 1, 1] [1, 1, 1] none)) (some [1, 1, -1]) = .ok [3 / 4, 3 / 4, 3 / 2] ∧
    finalFrom [(1 : ℚ), 1, 1] [1, 1, 1] none (some [1, 1, -1]) = .ok [3 / 4, 3 / 4, 3 / 2] := by decide +kernel

end FinML

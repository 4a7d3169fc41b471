/-
C60: the price tick estimate.
-/
import Verif.Model.TickSize
import Mathlib.Tactic.LinearCombination

set_option linter.unusedSectionVars false

namespace FinML

/-! ### Library functions -/

theorem rint_intCast (z : Int) : rint (z : ℚ) = z := by
  unfold rint
  have h : (z : ℚ).floor = z := by
    exact Rat.floor_intCast z
  simp only [h, sub_self]
  norm_num

theorem round12_grid (z : Int) : round12 ((z : ℚ) / 10 ^ 12) = (z : ℚ) / 10 ^ 12 := by
  unfold round12
  rw [div_mul_cancel₀ _ (by norm_num), rint_intCast]

theorem npUnique_sorted (l : List ℚ) : (npUnique l).Pairwise (· < ·) := by
  have h1 := List.pairwise_insertionSort (fun a b : ℚ => a ≤ b) l.dedup
  have h2 : (l.dedup.insertionSort (· ≤ ·)).Nodup := (List.perm_insertionSort _ _).nodup_iff.mpr l.nodup_dedup
  unfold npUnique
  exact (h1.and h2).imp (fun h => lt_of_le_of_ne h.1 h.2)

theorem mem_npUnique (l : List ℚ) (p : ℚ) : p ∈ npUnique l ↔ p ∈ l := by
  unfold npUnique
  rw [List.mem_insertionSort, List.mem_dedup]

theorem npDiff_pos {α : Type} [Ring α] [LinearOrder α] [IsStrictOrderedRing α] :
    ∀ (u : List α), u.Pairwise (· < ·) → ∀ d ∈ npDiff u, 0 < d := by
  intro u
  induction u with
  | nil => intro _ d hd; simp [npDiff] at hd
  | cons a u ih =>
    intro hs d hd
    cases u with
    | nil => simp [npDiff] at hd
    | cons b u =>
      rw [npDiff] at hd
      rcases List.mem_cons.mp hd with rfl | h
      · exact sub_pos.mpr ((List.pairwise_cons.mp hs).1 b (by simp))
      · exact ih (List.pairwise_cons.mp hs).2 d h

theorem npDiff_mem_iff {α : Type} [Sub α] : ∀ (u : List α) (d : α),
    d ∈ npDiff u → ∃ p ∈ u, ∃ q ∈ u, d = q - p := by
  intro u
  induction u with
  | nil => intro d hd; simp [npDiff] at hd
  | cons a u ih =>
    intro d hd
    cases u with
    | nil => simp [npDiff] at hd
    | cons b u =>
      rw [npDiff] at hd
      rcases List.mem_cons.mp hd with rfl | h
      · exact ⟨a, by simp, b, by simp, rfl⟩
      · obtain ⟨p, hp, q, hq, e⟩ := ih d h
        exact ⟨p, by simp [hp], q, by simp [hq], e⟩

/-- A predicate closed under addition and negation that holds of consecutive differences holds of all. -/
theorem npDiff_closed {α : Type} [AddCommGroup α] (Q : α → Prop) (h0 : Q 0) (hadd : ∀ a b, Q a → Q b → Q (a + b))
    (hneg : ∀ a, Q a → Q (-a)) :
    ∀ (u : List α), (∀ d ∈ npDiff u, Q d) → ∀ p ∈ u, ∀ q ∈ u, Q (q - p) := by
  intro u hu
  have key : ∀ (u : List α) (a : α), (∀ d ∈ npDiff (a :: u), Q d) → ∀ p ∈ a :: u, Q (p - a) := by
    intro u
    induction u with
    | nil => intro a _ p hp; simp at hp; subst hp; simpa using h0
    | cons b u ih =>
      intro a h p hp
      rw [npDiff] at h
      rcases List.mem_cons.mp hp with rfl | hp
      · simpa using h0
      · have h1 := ih b (fun d hd => h d (by simp [hd])) p hp
        have h2 := h (b - a) (by simp)
        have := hadd _ _ h1 h2
        simpa using this
  cases u with
  | nil => intro p hp; simp at hp
  | cons a u =>
    intro p hp q hq
    have h1 := key u a hu p hp
    have h2 := key u a hu q hq
    have := hadd _ _ h2 (hneg _ h1)
    have e : q - a + -(p - a) = q - p := by abel
    rwa [e] at this

/-- The smallest consecutive difference of a strictly sorted list is at most every positive difference. -/
theorem minOf_le : ∀ (l : List ℚ), ∀ d ∈ l, minOf l ≤ d := by
  intro l
  cases l with
  | nil => intro d hd; simp at hd
  | cons a l =>
    have h : ∀ (l : List ℚ) (a : ℚ), l.foldl min a ≤ a ∧ ∀ d ∈ l, l.foldl min a ≤ d := by
      intro l
      induction l with
      | nil => intro a; simp
      | cons b l ih =>
        intro a
        rw [List.foldl_cons]
        obtain ⟨h1, h2⟩ := ih (min a b)
        refine ⟨le_trans h1 (min_le_left _ _), ?_⟩
        intro d hd
        rcases List.mem_cons.mp hd with rfl | hd
        · exact le_trans h1 (min_le_right _ _)
        · exact h2 d hd
    intro d hd
    rcases List.mem_cons.mp hd with rfl | hd
    · exact (h l d).1
    · exact (h l a).2 d hd

theorem minOf_mem : ∀ (l : List ℚ), l ≠ [] → minOf l ∈ l := by
  intro l hl
  cases l with
  | nil => exact absurd rfl hl
  | cons a l =>
    have h : ∀ (l : List ℚ) (a : ℚ), l.foldl min a ∈ a :: l := by
      intro l
      induction l with
      | nil => intro a; simp
      | cons b l ih =>
        intro a
        rw [List.foldl_cons]
        rcases List.mem_cons.mp (ih (min a b)) with h | h
        · rw [h]
          rcases min_choice a b with h' | h' <;> rw [h'] <;> simp
        · exact List.mem_cons_of_mem _ (List.mem_cons_of_mem _ h)
    exact h l a

theorem exists_diff_le : ∀ (u : List ℚ), u.Pairwise (· < ·) → ∀ p ∈ u, ∀ q ∈ u, p < q →
    ∃ d ∈ npDiff u, d ≤ q - p := by
  intro u
  induction u with
  | nil => intro _ p hp; simp at hp
  | cons a u ih =>
    intro hs p hp q hq hpq
    obtain ⟨h1, h2⟩ := List.pairwise_cons.mp hs
    have hqu : q ∈ u := by
      rcases List.mem_cons.mp hq with rfl | h
      · rcases List.mem_cons.mp hp with rfl | h
        · exact absurd hpq (lt_irrefl _)
        · exact absurd (h1 p h) (not_lt.mpr hpq.le)
      · exact h
    cases u with
    | nil => simp at hqu
    | cons b u =>
      rcases List.mem_cons.mp hp with rfl | hpu
      · refine ⟨b - p, by rw [npDiff]; simp, ?_⟩
        rcases List.mem_cons.mp hqu with rfl | h
        · exact le_refl _
        · have := (List.pairwise_cons.mp h2).1 q h
          linarith
      · obtain ⟨d, hd, hle⟩ := ih h2 p hpu q hqu hpq
        exact ⟨d, by rw [npDiff]; exact List.mem_cons_of_mem _ hd, hle⟩

/-! ### The divisor loop -/

theorem gcdLoop_spec : ∀ (ds : List Int) (t : Int), 0 ≤ t → (∀ d ∈ ds, 0 < d) →
    (gcdLoop ds t ∣ t ∧ ∀ d ∈ ds, gcdLoop ds t ∣ d) ∧ 0 ≤ gcdLoop ds t ∧
    ((0 < t ∨ ds ≠ []) → 0 < gcdLoop ds t) ∧
    (∀ Q : Int → Prop, (∀ a b x y, Q a → Q b → Q (a * x + b * y)) → Q t → (∀ d ∈ ds, Q d) → Q (gcdLoop ds t)) := by
  intro ds
  induction ds with
  | nil =>
    intro t ht _
    refine ⟨⟨dvd_refl _, by simp⟩, ht, ?_, fun Q _ h _ => h⟩
    rintro (h | h)
    · exact h
    · exact absurd rfl h
  | cons d ds ih =>
    intro t ht hd
    have hd0 : 0 < d := hd d (by simp)
    have hstep : ∀ t' : Int, t' = (if t = 0 then d else (Int.gcd t d : Int)) →
        (0 < t' ∧ t' ∣ t ∧ t' ∣ d ∧
          (∀ Q : Int → Prop, (∀ a b x y, Q a → Q b → Q (a * x + b * y)) → Q t → Q d → Q t')) := by
      rintro t' rfl
      split
      · rename_i h0
        subst h0
        exact ⟨hd0, dvd_zero _, dvd_refl _, fun Q _ _ h => h⟩
      · refine ⟨?_, Int.gcd_dvd_left .., Int.gcd_dvd_right .., ?_⟩
        · exact_mod_cast Int.gcd_pos_of_ne_zero_right t (by omega)
        · intro Q hQ h1 h2
          rw [Int.gcd_eq_gcd_ab]
          exact hQ _ _ _ _ h1 h2
    have hg : gcdLoop (d :: ds) t = (if (if t = 0 then d else (Int.gcd t d : Int)) = 1
        then (if t = 0 then d else (Int.gcd t d : Int))
        else gcdLoop ds (if t = 0 then d else (Int.gcd t d : Int))) := by
      conv_lhs => rw [gcdLoop]
      rw [if_pos hd0]
    obtain ⟨t', ht'⟩ : ∃ t', t' = (if t = 0 then d else (Int.gcd t d : Int)) := ⟨_, rfl⟩
    rw [← ht'] at hg
    obtain ⟨p1, p2, p3, p4⟩ := hstep t' ht'
    rw [hg]
    split
    · rename_i h1
      rw [h1]
      exact ⟨⟨one_dvd _, fun _ _ => one_dvd _⟩, by omega, fun _ => by omega,
        fun Q hQ ha hb => h1 ▸ p4 Q hQ ha (hb d (by simp))⟩
    · obtain ⟨⟨i1, i2⟩, i3, i4, i5⟩ := ih t' p1.le (fun x hx => hd x (by simp [hx]))
      refine ⟨⟨dvd_trans i1 p2, ?_⟩, i3, fun _ => i4 (Or.inl p1), ?_⟩
      · intro x hx
        rcases List.mem_cons.mp hx with rfl | hx
        · exact dvd_trans i1 p3
        · exact i2 x hx
      · intro Q hQ ha hb
        exact i5 Q hQ (p4 Q hQ ha (hb d (by simp))) (fun x hx => hb x (by simp [hx]))

/-! ### The estimate -/

/-- `g` is the tick of the prices `S`: positive, all price differences are whole multiples of it, and it is
itself a whole multiple of every number with that property. -/
def IsTick (S : List ℚ) (g : ℚ) : Prop :=
  0 < g ∧ (∀ p ∈ S, ∀ q ∈ S, ∃ k : Int, q - p = k * g) ∧
  ∀ d : ℚ, (∀ p ∈ S, ∀ q ∈ S, ∃ k : Int, q - p = k * d) → ∃ k : Int, g = k * d

/-- The tick is unique. -/
theorem C60_tick_unique (S : List ℚ) (g g' : ℚ) (h : IsTick S g) (h' : IsTick S g') : g = g' := by
  obtain ⟨k, hk⟩ := h.2.2 g' h'.2.1
  obtain ⟨k', hk'⟩ := h'.2.2 g h.2.1
  have hg := h.1
  have h1 : (k : ℚ) * k' = 1 := by
    have : g = (k * k') * g := by rw [mul_assoc, ← hk', ← hk]
    have h2 : ((k : ℚ) * k' - 1) * g = 0 := by linear_combination -this
    rcases mul_eq_zero.mp h2 with h3 | h3
    · linarith
    · exact absurd h3 hg.ne'
  have h2 : k * k' = 1 := by exact_mod_cast h1
  have hkpos : 0 < k := by
    have : (0 : ℚ) < k := by
      by_contra hc
      have := mul_nonpos_of_nonpos_of_nonneg (not_lt.mp hc) h'.1.le
      rw [← hk] at this
      linarith
    exact_mod_cast this
  have h3 : k = 1 := by
    rcases Int.eq_one_or_neg_one_of_mul_eq_one h2 with h | h
    · exact h
    · omega
  rw [hk, h3]; ring

theorem pairwise_map_int (zs : List Int) (c : ℚ) (hc : 0 < c) (h : (zs.map (fun z : Int => (z : ℚ) * c)).Pairwise (· < ·)) :
    zs.Pairwise (· < ·) := by
  rw [List.pairwise_map] at h
  exact h.imp (fun {a b} hab => by
    have := lt_of_mul_lt_mul_right hab hc.le
    exact_mod_cast this)

theorem exists_ints (c : ℚ) : ∀ (u : List ℚ), (∀ p ∈ u, ∃ z : Int, p = z * c) →
    ∃ zs : List Int, u = zs.map (fun z : Int => (z : ℚ) * c) := by
  intro u
  induction u with
  | nil => intro _; exact ⟨[], rfl⟩
  | cons a u ih =>
    intro h
    obtain ⟨z, hz⟩ := h a (by simp)
    obtain ⟨zs, hzs⟩ := ih (fun p hp => h p (by simp [hp]))
    exact ⟨z :: zs, by rw [List.map_cons, ← hz, ← hzs]⟩

theorem tickOf_grid (u : List ℚ) (hu : u.Pairwise (· < ·)) (e : Int)
    (hgrid : ∀ p ∈ u, ∃ z : Int, p = z * (10 : ℚ) ^ e)
    (hclose : ∃ p ∈ u, ∃ q ∈ u, p < q ∧ q - p < (10 : ℚ) ^ (e + 1)) : IsTick u (tickOf u) := by
  obtain ⟨p, hp, q, hq, hpq, hlt⟩ := hclose
  have hcpos : (0 : ℚ) < 10 ^ e := zpow_pos (by norm_num) e
  have hlen : ¬ u.length ≤ 1 := by
    intro h
    rcases Nat.le_one_iff_eq_zero_or_eq_one.mp h with h | h
    · rw [List.length_eq_zero_iff.mp h] at hp; simp at hp
    · obtain ⟨a, rfl⟩ := List.length_eq_one_iff.mp h
      simp at hp hq
      rw [hp, hq] at hpq
      exact lt_irrefl _ hpq
  -- the decade
  have hposd := npDiff_pos u hu
  have hfilter : (npDiff u).filter (fun d => decide (0 < d)) = npDiff u := by
    rw [List.filter_eq_self]
    intro d hd
    simpa using hposd d hd
  obtain ⟨d₀, hd₀, hle₀⟩ := exists_diff_le u hu p hp q hq hpq
  have hne : npDiff u ≠ [] := List.ne_nil_of_mem hd₀
  have hmin_mem := minOf_mem _ hne
  have hmin_le := minOf_le _ d₀ hd₀
  have hlow : (10 : ℚ) ^ e ≤ minOf (npDiff u) := by
    obtain ⟨a, ha, b, hb, hab⟩ := npDiff_mem_iff u _ hmin_mem
    obtain ⟨z, hz⟩ := hgrid a ha
    obtain ⟨w, hw⟩ := hgrid b hb
    have h1 := hposd _ hmin_mem
    rw [hab, hz, hw] at h1 ⊢
    have h2 : (0 : ℚ) < (w - z : Int) := by
      have h3 : ((w : ℚ) - z) * 10 ^ e > 0 := by linarith
      have := (mul_pos_iff_of_pos_right hcpos).mp h3
      push_cast
      exact this
    have h4 : (1 : ℚ) ≤ (w - z : Int) := by exact_mod_cast Int.cast_pos.mp h2
    push_cast at h4
    nlinarith
  have hlog : Int.log 10 (minOf (npDiff u)) = e := by
    have hpos : 0 < minOf (npDiff u) := lt_of_lt_of_le hcpos hlow
    apply le_antisymm
    · have := (Int.lt_zpow_iff_log_lt (b := 10) (by norm_num) hpos (x := e + 1)).mp (by
        push_cast
        linarith)
      omega
    · exact (Int.zpow_le_iff_le_log (b := 10) (by norm_num) hpos (x := e)).mp (by push_cast; exact hlow)
  -- the integers
  obtain ⟨zs, hzs⟩ := exists_ints _ u hgrid
  have hscale : ((10 : ℚ) ^ e) * 10 ^ (-e) = 1 := by
    rw [← zpow_add₀ (by norm_num)]; simp
  have hints : u.map (fun p => rint (p * (10 : ℚ) ^ (-e))) = zs := by
    rw [hzs, List.map_map]
    have : ((fun p => rint (p * (10 : ℚ) ^ (-e))) ∘ fun z : Int => (z : ℚ) * 10 ^ e) = id := by
      funext z
      simp only [Function.comp, id]
      rw [mul_assoc, hscale, mul_one, rint_intCast]
    rw [this, List.map_id]
  have hzsorted : zs.Pairwise (· < ·) := pairwise_map_int zs _ hcpos (hzs ▸ hu)
  have hzpos := npDiff_pos zs hzsorted
  have hzne : npDiff zs ≠ [] := by
    match zs, hzs with
    | [], h => rw [h] at hp; simp at hp
    | [a], h => rw [h] at hlen; simp at hlen
    | a :: b :: l, _ => simp [npDiff]
  obtain ⟨⟨_, g1⟩, _, g3, g4⟩ := gcdLoop_spec (npDiff zs) 0 (le_refl _) hzpos
  have hval : tickOf u = (gcdLoop (npDiff zs) 0 : ℚ) * 10 ^ e := by
    unfold tickOf
    rw [if_neg hlen, hfilter, hlog]
    show (gcdLoop (npDiff (u.map (fun p => rint (p * (10 : ℚ) ^ (-e))))) 0 : ℚ) / (10 : ℚ) ^ (-e) = _
    rw [hints]
    rw [zpow_neg, div_inv_eq_mul]
  rw [hval]
  generalize gcdLoop (npDiff zs) 0 = g at *
  have hgpos : (0 : ℚ) < g := by exact_mod_cast g3 (Or.inr hzne)
  have hall := npDiff_closed (fun z : Int => g ∣ z) (dvd_zero _) (fun a b => dvd_add) (fun a h => (dvd_neg).mpr h) zs g1
  refine ⟨mul_pos hgpos hcpos, ?_, ?_⟩
  · intro p hp q hq
    rw [hzs] at hp hq
    obtain ⟨z, hz, rfl⟩ := List.mem_map.mp hp
    obtain ⟨w, hw, rfl⟩ := List.mem_map.mp hq
    obtain ⟨k, hk⟩ := hall z hz w hw
    refine ⟨k, ?_⟩
    have : (w : ℚ) - z = g * k := by exact_mod_cast hk
    linear_combination 10 ^ e * this
  · intro d hd
    refine g4 (fun z => ∃ k : Int, (z : ℚ) * 10 ^ e = k * d) ?_ ⟨0, by simp⟩ ?_
    · rintro a b x y ⟨k, hk⟩ ⟨l, hl⟩
      refine ⟨k * x + l * y, ?_⟩
      push_cast
      linear_combination x * hk + y * hl
    · intro z hz
      obtain ⟨a, ha, b, hb, rfl⟩ := npDiff_mem_iff zs z hz
      obtain ⟨k, hk⟩ := hd _ (by rw [hzs]; exact List.mem_map_of_mem ha) _ (by rw [hzs]; exact List.mem_map_of_mem hb)
      refine ⟨k, ?_⟩
      push_cast
      linear_combination hk

theorem isTick_congr (S S' : List ℚ) (h : ∀ p, p ∈ S ↔ p ∈ S') (g : ℚ) (hg : IsTick S g) : IsTick S' g := by
  refine ⟨hg.1, fun p hp q hq => hg.2.1 p ((h p).mpr hp) q ((h q).mpr hq), fun d hd => ?_⟩
  exact hg.2.2 d (fun p hp q hq => hd p ((h p).mp hp) q ((h q).mp hq))

/-- If all prices are whole multiples of a power of ten (at least `1e-12`) and two of the first 10000
prices are different but less than ten such steps apart, the estimate is the tick of those prices: the
largest increment of which all differences are whole multiples.  Partial: the decimal grid is assumed;
see the violations. -/
theorem C60_tick_exact_partial (prices : List ℚ) (e : Int) (he : -12 ≤ e)
    (hgrid : ∀ p ∈ prices, ∃ z : Int, p = z * (10 : ℚ) ^ e)
    (hclose : ∃ p ∈ prices.take 10000, ∃ q ∈ prices.take 10000, p < q ∧ q - p < (10 : ℚ) ^ (e + 1)) :
    ∃ g, compTickSize prices = .ok g ∧ IsTick (prices.take 10000) g := by
  have hround : (prices.take 10000).map round12 = prices.take 10000 := by
    conv_rhs => rw [← List.map_id (prices.take 10000)]
    apply List.map_congr_left
    intro p hp
    obtain ⟨z, hz⟩ := hgrid p (List.mem_of_mem_take hp)
    have h10 : (10 : ℚ) ^ e = (((10 : Int) ^ (e + 12).toNat : Int) : ℚ) / 10 ^ 12 := by
      push_cast
      rw [eq_div_iff (by norm_num), ← zpow_natCast, ← zpow_natCast, ← zpow_add₀ (by norm_num)]
      congr 1
      push_cast
      omega
    have : p = ((z * (10 : Int) ^ (e + 12).toNat : Int) : ℚ) / 10 ^ 12 := by
      rw [hz, h10]; push_cast; ring
    rw [this, round12_grid]; rfl
  have hmem : ∀ p, p ∈ npUnique (prices.take 10000) ↔ p ∈ prices.take 10000 := mem_npUnique _
  have hne : prices ≠ [] := by
    rintro rfl
    obtain ⟨p, hp, _⟩ := hclose
    simp at hp
  refine ⟨_, by unfold compTickSize; rw [if_neg hne, hround], ?_⟩
  refine isTick_congr _ _ hmem _ (tickOf_grid _ (npUnique_sorted _) e ?_ ?_)
  · intro p hp; exact hgrid p (List.mem_of_mem_take ((hmem p).mp hp))
  · obtain ⟨p, hp, q, hq, h⟩ := hclose
    exact ⟨p, (hmem p).mpr hp, q, (hmem q).mpr hq, h⟩

example : (-12 : Int) ≤ -2 ∧ (∀ p ∈ ([101 / 100, 104 / 100] : List ℚ), ∃ z : Int, p = z * (10 : ℚ) ^ (-2 : Int)) ∧
    (104 / 100 : ℚ) - 101 / 100 < (10 : ℚ) ^ (-2 + 1 : Int) := by
  refine ⟨by norm_num, ?_, by norm_num⟩
  intro p hp
  simp only [List.mem_cons, List.not_mem_nil, or_false] at hp
  rcases hp with rfl | rfl
  · exact ⟨101, by norm_num⟩
  · exact ⟨104, by norm_num⟩

/-- On a decimal grid where two sampled prices are one step apart, the estimate is the step. -/
theorem C60_grid_step (prices : List ℚ) (e : Int) (he : -12 ≤ e)
    (hgrid : ∀ p ∈ prices, ∃ z : Int, p = z * (10 : ℚ) ^ e)
    (hstep : ∃ p ∈ prices.take 10000, p + (10 : ℚ) ^ e ∈ prices.take 10000) :
    compTickSize prices = .ok ((10 : ℚ) ^ e) := by
  obtain ⟨p, hp, hq⟩ := hstep
  have hcpos : (0 : ℚ) < 10 ^ e := zpow_pos (by norm_num) e
  obtain ⟨g, hg, ht⟩ := C60_tick_exact_partial prices e he hgrid
    ⟨p, hp, _, hq, by linarith, by rw [zpow_add₀ (by norm_num)]; norm_num; linarith⟩
  have : IsTick (prices.take 10000) ((10 : ℚ) ^ e) := by
    refine ⟨hcpos, ?_, ?_⟩
    · intro a ha b hb
      obtain ⟨z, hz⟩ := hgrid a (List.mem_of_mem_take ha)
      obtain ⟨w, hw⟩ := hgrid b (List.mem_of_mem_take hb)
      exact ⟨w - z, by rw [hz, hw]; push_cast; ring⟩
    · intro d hd
      obtain ⟨k, hk⟩ := hd p hp _ hq
      exact ⟨k, by linarith⟩
  rw [hg, C60_tick_unique _ _ _ ht this]

/-- Only the set of sampled prices matters, not their order or multiplicity. -/
theorem C60_order_free (a b : List ℚ) (ha : a ≠ []) (hb : b ≠ []) (h : ∀ p, p ∈ a.take 10000 ↔ p ∈ b.take 10000) :
    compTickSize a = compTickSize b := by
  unfold compTickSize
  rw [if_neg ha, if_neg hb]
  congr 2
  have hm : ∀ p, p ∈ (a.take 10000).map round12 ↔ p ∈ (b.take 10000).map round12 := by
    intro p
    simp only [List.mem_map, h]
  have hs1 := npUnique_sorted ((a.take 10000).map round12)
  have hs2 := npUnique_sorted ((b.take 10000).map round12)
  have hn1 : (npUnique ((a.take 10000).map round12)).Nodup := hs1.imp (fun h => ne_of_lt h)
  have hn2 : (npUnique ((b.take 10000).map round12)).Nodup := hs2.imp (fun h => ne_of_lt h)
  have hperm : (npUnique ((a.take 10000).map round12)).Perm (npUnique ((b.take 10000).map round12)) := by
    rw [List.perm_ext_iff_of_nodup hn1 hn2]
    intro p
    rw [mem_npUnique, mem_npUnique, hm]
  exact hperm.eq_of_pairwise (fun x y _ _ h1 h2 => absurd h1 (not_lt.mpr h2.le)) hs1 hs2

example : ∀ p, p ∈ ([1, 2, 2] : List ℚ).take 10000 ↔ p ∈ ([2, 1] : List ℚ).take 10000 := by
  intro p
  simp only [show ([1, 2, 2] : List ℚ).take 10000 = [1, 2, 2] from rfl, show ([2, 1] : List ℚ).take 10000 = [2, 1] from rfl,
    List.mem_cons, List.not_mem_nil, or_false]
  tauto

/-- No prices: an error.  One distinct price: zero. -/
theorem C60_degenerate (prices : List ℚ) :
    (prices = [] → ∃ e, compTickSize prices = .error e) ∧
    (prices ≠ [] → (∀ p ∈ prices, ∀ q ∈ prices, p = q) → compTickSize prices = .ok 0) := by
  refine ⟨fun h => ⟨_, by unfold compTickSize; rw [if_pos h]⟩, fun hne hall => ?_⟩
  unfold compTickSize
  rw [if_neg hne]
  congr 1
  unfold tickOf
  rw [if_pos]
  by_contra hc
  have hs := npUnique_sorted ((prices.take 10000).map round12)
  have hm := mem_npUnique ((prices.take 10000).map round12)
  match hu : npUnique ((prices.take 10000).map round12), hc with
  | [], hc => simp at hc
  | [a], hc => simp at hc
  | a :: b :: l, _ =>
    rw [hu] at hs hm
    have hab : a < b := (List.pairwise_cons.mp hs).1 b (by simp)
    obtain ⟨p, hp, rfl⟩ := List.mem_map.mp ((hm a).mp (by simp))
    obtain ⟨q, hq, rfl⟩ := List.mem_map.mp ((hm b).mp (by simp))
    rw [hall p (List.mem_of_mem_take hp) q (List.mem_of_mem_take hq)] at hab
    exact lt_irrefl _ hab

/-- Violation: a tick that is not a power of ten times the leading digit of the gaps is missed.  Prices
on a 0.25 grid give 0.1, and 0.25 is not a multiple of 0.1. -/
theorem C60_quarter_tick_missed :
    compTickSize [100, 401/4, 201/2] = .ok (1/10) ∧ ¬ IsTick [100, 401/4, 201/2] (1/10) := by
  refine ⟨by decide +kernel, ?_⟩
  rintro ⟨_, h, _⟩
  obtain ⟨k, hk⟩ := h 100 (by simp) (401/4) (by simp)
  have : (2 : ℚ) * k = 5 := by linarith
  have h2 : 2 * k = 5 := by exact_mod_cast this
  omega

/-- Violation: rounding ties to even makes two different prices coincide and the estimate is zero,
which stands for "undeterminable". -/
theorem C60_half_tick_zero : compTickSize [3/2, 5/2] = .ok 0 ∧ IsTick [3/2, 5/2] 1 := by
  refine ⟨by decide +kernel, by norm_num, ?_, ?_⟩
  · intro p hp q hq
    simp only [List.mem_cons, List.not_mem_nil, or_false] at hp hq
    rcases hp with rfl | rfl <;> rcases hq with rfl | rfl
    · exact ⟨0, by norm_num⟩
    · exact ⟨1, by norm_num⟩
    · exact ⟨-1, by norm_num⟩
    · exact ⟨0, by norm_num⟩
  · intro d hd
    obtain ⟨k, hk⟩ := hd (3/2) (by simp) (5/2) (by simp)
    exact ⟨k, by linarith⟩

/-! ### Non-vacuity -/

example : compTickSize [201/20, 101/10, 101/10, 41/4] = .ok (1/20) := by decide +kernel

example : (∀ p ∈ ([201/20, 101/10] : List ℚ), ∃ z : Int, p = z * (10 : ℚ) ^ (-2 : Int)) ∧
    ∃ p ∈ ([201/20, 101/10] : List ℚ), ∃ q ∈ ([201/20, 101/10] : List ℚ), p < q ∧ q - p < (10 : ℚ) ^ ((-2 : Int) + 1) := by
  refine ⟨?_, 201/20, by simp, 101/10, by simp, by norm_num, by norm_num⟩
  intro p hp
  simp only [List.mem_cons, List.not_mem_nil, or_false] at hp
  rcases hp with rfl | rfl
  · exact ⟨1005, by norm_num⟩
  · exact ⟨1010, by norm_num⟩

end FinML

/-
C88: volumes and volume-weighted prices of bars in float64.
-/
import Verif.Model.Float64Bars
import Verif.Lemmas.Float64
import Mathlib.Algebra.Order.BigOperators.Group.List

set_option linter.unusedSectionVars false

namespace FinML

/-- Rounding of non-negative numbers changes them by a factor in `[1 - u, 1 + u]`, `u = 2^-53`. -/
theorem f64_factor {x : ℚ} (h : 0 ≤ x) : x * (1 - 1 / 2 ^ 53) ≤ f64 x ∧ f64 x ≤ x * (1 + 1 / 2 ^ 53) := by
  have := f64_relErr x
  rw [abs_of_nonneg h, abs_le] at this
  constructor <;> linarith [this.1, this.2]

theorem f32_factor {x : ℚ} (h : 0 ≤ x) : x * (1 - 1 / 2 ^ 24) ≤ f32 x ∧ f32 x ≤ x * (1 + 1 / 2 ^ 24) := by
  have := rndBits_relErr 24 x
  rw [abs_of_nonneg h, abs_le] at this
  unfold f32
  constructor <;> linarith [this.1, this.2]

theorem fold64_bounds {α : Type} (g ex : α → ℚ) (u : ℚ) (a b : ℚ) (hu : u = 1 / 2 ^ 53) (ha : 0 ≤ a) (hb : 0 ≤ b) :
    ∀ (l : List α) (s S : ℚ) (k : Nat), (∀ t ∈ l, 0 ≤ ex t ∧ ex t * a ≤ g t ∧ g t ≤ ex t * b) → 0 ≤ S →
      S * (a * (1 - u) ^ k) ≤ s → s ≤ S * (b * (1 + u) ^ k) →
      (S + (l.map ex).sum) * (a * (1 - u) ^ (k + l.length)) ≤ l.foldl (fun s t => f64 (s + g t)) s ∧
      l.foldl (fun s t => f64 (s + g t)) s ≤ (S + (l.map ex).sum) * (b * (1 + u) ^ (k + l.length))
  | [], s, S, k, _, _, h1, h2 => by simpa using ⟨h1, h2⟩
  | t :: l, s, S, k, hl, hS, h1, h2 => by
    have hu0 : 0 ≤ u := by rw [hu]; norm_num
    have hu1 : u ≤ 1 := by rw [hu]; norm_num
    obtain ⟨e0, e1, e2⟩ := hl t (by simp)
    have p1 : (0 : ℚ) ≤ (1 - u) ^ k := pow_nonneg (by linarith) k
    have p1' : (1 - u) ^ k ≤ 1 := pow_le_one₀ (by linarith) (by linarith)
    have p2 : (1 : ℚ) ≤ (1 + u) ^ k := one_le_pow₀ (by linarith)
    -- the sum before rounding
    have s1 : (S + ex t) * (a * (1 - u) ^ k) ≤ s + g t := by
      have : ex t * (a * (1 - u) ^ k) ≤ ex t * a := by
        apply mul_le_mul_of_nonneg_left _ e0
        exact mul_le_of_le_one_right ha p1'
      linarith [add_mul S (ex t) (a * (1 - u) ^ k)]
    have s2 : s + g t ≤ (S + ex t) * (b * (1 + u) ^ k) := by
      have : ex t * b ≤ ex t * (b * (1 + u) ^ k) := by
        apply mul_le_mul_of_nonneg_left _ e0
        exact le_mul_of_one_le_right hb p2
      linarith [add_mul S (ex t) (b * (1 + u) ^ k)]
    have s0 : 0 ≤ s + g t := le_trans (mul_nonneg (by linarith) (mul_nonneg ha p1)) s1
    have hf := f64_factor s0
    rw [← hu] at hf
    have ih := fold64_bounds g ex u a b hu ha hb l (f64 (s + g t)) (S + ex t) (k + 1)
      (fun x hx => hl x (by simp [hx])) (by linarith)
      (by
        calc (S + ex t) * (a * (1 - u) ^ (k + 1)) = (S + ex t) * (a * (1 - u) ^ k) * (1 - u) := by rw [pow_succ]; ring
          _ ≤ (s + g t) * (1 - u) := mul_le_mul_of_nonneg_right s1 (by linarith)
          _ ≤ _ := hf.1)
      (by
        calc f64 (s + g t) ≤ (s + g t) * (1 + u) := hf.2
          _ ≤ (S + ex t) * (b * (1 + u) ^ k) * (1 + u) := mul_le_mul_of_nonneg_right s2 (by linarith)
          _ = _ := by rw [pow_succ]; ring)
    rw [List.map_cons, List.sum_cons, List.length_cons, List.foldl_cons]
    have e : k + (l.length + 1) = k + 1 + l.length := by ring
    rw [e, ← add_assoc]
    exact ih

/-- **C88.** The float64 volume of a bar of `n` trades is the exact sum up to a factor in `[(1-u)^n, (1+u)^n]`, `u = 2^-53`. -/
theorem C88_volume (l : List ℚ) (h : ∀ v ∈ l, 0 ≤ v) :
    l.sum * (1 - 1 / 2 ^ 53) ^ l.length ≤ sum64 l ∧ sum64 l ≤ l.sum * (1 + 1 / 2 ^ 53) ^ l.length := by
  have := fold64_bounds (fun v : ℚ => v) (fun v => v) (1 / 2 ^ 53) 1 1 rfl (by norm_num) (by norm_num) l 0 0 0
    (fun t ht => ⟨h t ht, by linarith, by linarith⟩) le_rfl (by norm_num) (by norm_num)
  simpa [sum64] using this

example : (∀ v ∈ ([1, 1 / 2 ^ 60, 3 / 2 ^ 54] : List ℚ), 0 ≤ v) ∧ sum64 [1, 1 / 2 ^ 60, 3 / 2 ^ 54] = 1 + 1 / 2 ^ 52 := by decide +kernel

/-- **C88.** Likewise the dollar value, with one more rounding for the products. -/
theorem C88_dollar (l : List (ℚ × ℚ)) (h : ∀ t ∈ l, 0 ≤ t.1 ∧ 0 ≤ t.2) :
    (l.map (fun t => t.1 * t.2)).sum * (1 - 1 / 2 ^ 53) ^ (l.length + 1) ≤ dollar64 l ∧
    dollar64 l ≤ (l.map (fun t => t.1 * t.2)).sum * (1 + 1 / 2 ^ 53) ^ (l.length + 1) := by
  have := fold64_bounds (fun t : ℚ × ℚ => f64 (t.1 * t.2)) (fun t => t.1 * t.2) (1 / 2 ^ 53) (1 - 1 / 2 ^ 53) (1 + 1 / 2 ^ 53) rfl
    (by norm_num) (by norm_num) l 0 0 0
    (fun t ht => ⟨mul_nonneg (h t ht).1 (h t ht).2, f64_factor (mul_nonneg (h t ht).1 (h t ht).2)⟩) le_rfl (by norm_num) (by norm_num)
  unfold dollar64
  rw [zero_add, zero_add] at this
  rw [pow_succ' (1 - 1 / 2 ^ 53 : ℚ) l.length, pow_succ' (1 + 1 / 2 ^ 53 : ℚ) l.length]
  exact this

example : (∀ t ∈ ([(3, 1 / 2), (5, 2)] : List (ℚ × ℚ)), 0 ≤ t.1 ∧ 0 ≤ t.2) ∧ dollar64 [(3, 1 / 2), (5, 2)] = 23 / 2 := by decide +kernel

/-- **C88.** The stored float32 volume. -/
theorem C88_stored_volume (l : List ℚ) (h : ∀ v ∈ l, 0 ≤ v) :
    l.sum * ((1 - 1 / 2 ^ 53) ^ l.length * (1 - 1 / 2 ^ 24)) ≤ volume32 l ∧
    volume32 l ≤ l.sum * ((1 + 1 / 2 ^ 53) ^ l.length * (1 + 1 / 2 ^ 24)) := by
  have hv := C88_volume l h
  have hs : 0 ≤ l.sum := List.sum_nonneg h
  have h0 : 0 ≤ sum64 l := le_trans (mul_nonneg hs (pow_nonneg (by norm_num) _)) hv.1
  have hf := f32_factor h0
  unfold volume32
  constructor
  · rw [← mul_assoc]
    exact le_trans (mul_le_mul_of_nonneg_right hv.1 (by norm_num)) hf.1
  · rw [← mul_assoc]
    exact le_trans hf.2 (mul_le_mul_of_nonneg_right hv.2 (by norm_num))

example : (∀ v ∈ ([16777216, 1] : List ℚ), 0 ≤ v) ∧ sum64 [16777216, 1] = 16777217 ∧ volume32 [16777216, 1] = 16777216 := by decide +kernel

theorem fold64_ge (l : List ℚ) (h : ∀ v ∈ l, 0 ≤ v) : ∀ s : ℚ, f64 s = s → s ≤ l.foldl (fun s v => f64 (s + v)) s := by
  induction l with
  | nil => intro s _; exact le_rfl
  | cons a l ih =>
    intro s hs
    rw [List.foldl_cons]
    refine le_trans ?_ (ih (fun v hv => h v (by simp [hv])) _ (f64_idem _))
    calc s = f64 s := hs.symm
      _ ≤ f64 (s + a) := f64_mono (by linarith [h a (by simp)])

/-- **C88.** Rounding never makes the accumulated volume smaller than one of its trades. -/
theorem C88_volume_ge_trade (l : List ℚ) (h : ∀ v ∈ l, 0 ≤ v ∧ f64 v = v) (v : ℚ) (hv : v ∈ l) : v ≤ sum64 l := by
  have key : ∀ (l : List ℚ) (s : ℚ), (∀ v ∈ l, 0 ≤ v ∧ f64 v = v) → 0 ≤ s → f64 s = s → v ∈ l →
      v ≤ l.foldl (fun s v => f64 (s + v)) s := by
    intro l
    induction l with
    | nil => intro s _ _ _ hv; simp at hv
    | cons a l ih =>
      intro s hl hs0 hs hv
      rw [List.foldl_cons]
      have ha := hl a (by simp)
      rcases List.mem_cons.mp hv with rfl | hv
      · refine le_trans ?_ (fold64_ge l (fun x hx => (hl x (by simp [hx])).1) _ (f64_idem _))
        calc v = f64 v := ha.2.symm
          _ ≤ f64 (s + v) := f64_mono (by linarith)
      · exact ih _ (fun x hx => hl x (by simp [hx])) (f64_nonneg (by linarith [ha.1])) (f64_idem _) hv
  exact key l 0 h le_rfl f64_zero hv

example : ∀ v ∈ ([1, 1 / 2 ^ 60, 3 / 2 ^ 54] : List ℚ), 0 ≤ v ∧ f64 v = v := by decide +kernel

/-- **C88.** So the volume is positive, and a price is reported, exactly when some trade has volume. -/
theorem C88_volume_pos (l : List ℚ) (h : ∀ v ∈ l, 0 ≤ v ∧ f64 v = v) : 0 < sum64 l ↔ ∃ v ∈ l, 0 < v := by
  constructor
  · intro hp
    by_contra hc
    have hz : ∀ v ∈ l, v = 0 := by
      intro v hv
      rcases (h v hv).1.eq_or_lt with e | e
      · exact e.symm
      · exact absurd ⟨v, hv, e⟩ hc
    have : l.sum = 0 := by
      clear hp hc h
      induction l with
      | nil => rfl
      | cons a l ih => rw [List.sum_cons, hz a (by simp), ih (fun v hv => hz v (by simp [hv])), add_zero]
    have hv := (C88_volume l (fun v hv => (h v hv).1)).2
    rw [this, zero_mul] at hv
    linarith
  · rintro ⟨v, hv, hp⟩
    exact lt_of_lt_of_le hp (C88_volume_ge_trade l h v hv)

example : (∀ v ∈ ([0, 1 / 2 ^ 60] : List ℚ), 0 ≤ v ∧ f64 v = v) ∧ sum64 [0, 1 / 2 ^ 60] = 1 / 2 ^ 60 := by decide +kernel

theorem weighted_between (l : List (ℚ × ℚ)) (lo hi : ℚ) (h : ∀ t ∈ l, lo ≤ t.1 ∧ t.1 ≤ hi ∧ 0 ≤ t.2) :
    lo * (l.map Prod.snd).sum ≤ (l.map (fun t => t.1 * t.2)).sum ∧
    (l.map (fun t => t.1 * t.2)).sum ≤ hi * (l.map Prod.snd).sum := by
  induction l with
  | nil => simp
  | cons t l ih =>
    obtain ⟨a, b, c⟩ := h t (by simp)
    obtain ⟨i1, i2⟩ := ih (fun x hx => h x (by simp [hx]))
    simp only [List.map_cons, List.sum_cons, mul_add]
    constructor
    · linarith [mul_le_mul_of_nonneg_right a c]
    · linarith [mul_le_mul_of_nonneg_right b c]

/-- **C88.** The float64 volume-weighted price of `n` trades with prices in `[lo, hi]` lies in that interval up to `2n + 2`
roundings. -/
theorem C88_vwap (l : List (ℚ × ℚ)) (lo hi : ℚ) (hlo : 0 ≤ lo) (h : ∀ t ∈ l, lo ≤ t.1 ∧ t.1 ≤ hi ∧ 0 ≤ t.2)
    (hp : 0 < sum64 (l.map Prod.snd)) :
    lo * ((1 - 1 / 2 ^ 53) ^ (l.length + 2) / (1 + 1 / 2 ^ 53) ^ l.length) ≤ vwap64 l ∧
    vwap64 l ≤ hi * ((1 + 1 / 2 ^ 53) ^ (l.length + 2) / (1 - 1 / 2 ^ 53) ^ l.length) := by
  have hnn : ∀ t ∈ l, 0 ≤ t.1 ∧ 0 ≤ t.2 := fun t ht => ⟨hlo.trans (h t ht).1, (h t ht).2.2⟩
  have hvn : ∀ v ∈ l.map Prod.snd, 0 ≤ v := by
    intro v hv
    obtain ⟨t, ht, rfl⟩ := List.mem_map.mp hv
    exact (hnn t ht).2
  have hv := C88_volume _ hvn
  rw [List.length_map] at hv
  have hd := C88_dollar l hnn
  have hw := weighted_between l lo hi h
  have hV : 0 ≤ (l.map Prod.snd).sum := List.sum_nonneg hvn
  unfold vwap64
  rw [if_pos hp]
  generalize hV' : (l.map Prod.snd).sum = V at *
  generalize (l.map (fun t => t.1 * t.2)).sum = D at *
  generalize sum64 (l.map Prod.snd) = s at *
  generalize dollar64 l = d at *
  generalize hu : (1 : ℚ) / 2 ^ 53 = u at *
  have hu0 : 0 < u := by rw [← hu]; norm_num
  have hu1 : u < 1 := by rw [← hu]; norm_num
  have q1 : 0 < (1 - u) ^ l.length := pow_pos (by linarith) _
  have q2 : 0 < (1 + u) ^ l.length := pow_pos (by linarith) _
  have hVpos : 0 < V := by
    by_contra hc
    have : V = 0 := le_antisymm (not_lt.mp hc) hV
    rw [this, zero_mul] at hv
    linarith [hv.2]
  have hDn : 0 ≤ D := le_trans (mul_nonneg hlo hV) hw.1
  have hdn : 0 ≤ d := le_trans (mul_nonneg hDn (pow_nonneg (by linarith) _)) hd.1
  have hf := f64_factor (div_nonneg hdn hp.le)
  rw [hu] at hf
  have hhi : 0 ≤ hi := by
    by_contra hc
    have : hi * V < 0 := mul_neg_of_neg_of_pos (not_le.mp hc) hVpos
    linarith [hw.2]
  constructor
  · refine le_trans ?_ hf.1
    have h1 : lo * ((1 - u) ^ (l.length + 1) / (1 + u) ^ l.length) ≤ d / s := by
      rw [le_div_iff₀ hp]
      calc lo * ((1 - u) ^ (l.length + 1) / (1 + u) ^ l.length) * s
          ≤ lo * ((1 - u) ^ (l.length + 1) / (1 + u) ^ l.length) * (V * (1 + u) ^ l.length) := by
            apply mul_le_mul_of_nonneg_left hv.2
            have : 0 ≤ (1 - u) ^ (l.length + 1) := pow_nonneg (by linarith) _
            positivity
        _ = lo * V * (1 - u) ^ (l.length + 1) := by field_simp
        _ ≤ D * (1 - u) ^ (l.length + 1) := mul_le_mul_of_nonneg_right hw.1 (pow_nonneg (by linarith) _)
        _ ≤ d := hd.1
    calc lo * ((1 - u) ^ (l.length + 2) / (1 + u) ^ l.length)
        = lo * ((1 - u) ^ (l.length + 1) / (1 + u) ^ l.length) * (1 - u) := by rw [pow_succ (1 - u) (l.length + 1)]; ring
      _ ≤ d / s * (1 - u) := mul_le_mul_of_nonneg_right h1 (by linarith)
  · refine le_trans hf.2 ?_
    have h1 : d / s ≤ hi * ((1 + u) ^ (l.length + 1) / (1 - u) ^ l.length) := by
      rw [div_le_iff₀ hp]
      calc d ≤ D * (1 + u) ^ (l.length + 1) := hd.2
        _ ≤ hi * V * (1 + u) ^ (l.length + 1) := mul_le_mul_of_nonneg_right hw.2 (pow_nonneg (by linarith) _)
        _ = hi * ((1 + u) ^ (l.length + 1) / (1 - u) ^ l.length) * (V * (1 - u) ^ l.length) := by field_simp
        _ ≤ _ := by
            apply mul_le_mul_of_nonneg_left hv.1
            have : 0 ≤ (1 + u) ^ (l.length + 1) := pow_nonneg (by linarith) _
            positivity
    calc d / s * (1 + u) ≤ hi * ((1 + u) ^ (l.length + 1) / (1 - u) ^ l.length) * (1 + u) :=
          mul_le_mul_of_nonneg_right h1 (by linarith)
      _ = _ := by rw [pow_succ (1 + u) (l.length + 1)]; ring

example : (∀ t ∈ ([(3, 1 / 2), (5, 2)] : List (ℚ × ℚ)), 3 ≤ t.1 ∧ t.1 ≤ 5 ∧ 0 ≤ t.2) ∧
    0 < sum64 (([(3, 1 / 2), (5, 2)] : List (ℚ × ℚ)).map Prod.snd) ∧ vwap64 [(3, 1 / 2), (5, 2)] ≠ 23 / 5 := by decide +kernel

/-- **C88.** The float64 volume-weighted price of `n` trades is the exact one, dollar value over volume, up to `2n + 2`
roundings. -/
theorem C88_vwap_relative (l : List (ℚ × ℚ)) (h : ∀ t ∈ l, 0 ≤ t.1 ∧ 0 ≤ t.2) (hp : 0 < sum64 (l.map Prod.snd)) :
    (l.map (fun t => t.1 * t.2)).sum / (l.map Prod.snd).sum * ((1 - 1 / 2 ^ 53) ^ (l.length + 2) / (1 + 1 / 2 ^ 53) ^ l.length)
      ≤ vwap64 l ∧
    vwap64 l ≤ (l.map (fun t => t.1 * t.2)).sum / (l.map Prod.snd).sum *
      ((1 + 1 / 2 ^ 53) ^ (l.length + 2) / (1 - 1 / 2 ^ 53) ^ l.length) := by
  have hvn : ∀ v ∈ l.map Prod.snd, 0 ≤ v := by
    intro v hv
    obtain ⟨t, ht, rfl⟩ := List.mem_map.mp hv
    exact (h t ht).2
  have hv := C88_volume _ hvn
  rw [List.length_map] at hv
  have hd := C88_dollar l h
  have hV : 0 ≤ (l.map Prod.snd).sum := List.sum_nonneg hvn
  have hD : 0 ≤ (l.map (fun t => t.1 * t.2)).sum := by
    apply List.sum_nonneg
    intro x hx
    obtain ⟨t, ht, rfl⟩ := List.mem_map.mp hx
    exact mul_nonneg (h t ht).1 (h t ht).2
  unfold vwap64
  rw [if_pos hp]
  generalize (l.map Prod.snd).sum = V at *
  generalize (l.map (fun t => t.1 * t.2)).sum = D at *
  generalize sum64 (l.map Prod.snd) = s at *
  generalize dollar64 l = d at *
  generalize hu : (1 : ℚ) / 2 ^ 53 = u at *
  have hu0 : 0 < u := by rw [← hu]; norm_num
  have hu1 : u < 1 := by rw [← hu]; norm_num
  have q1 : 0 < (1 - u) ^ l.length := pow_pos (by linarith) _
  have q2 : 0 < (1 + u) ^ l.length := pow_pos (by linarith) _
  have hVpos : 0 < V := by
    by_contra hc
    have : V = 0 := le_antisymm (not_lt.mp hc) hV
    rw [this, zero_mul] at hv
    linarith [hv.2]
  have hdn : 0 ≤ d := le_trans (mul_nonneg hD (pow_nonneg (by linarith) _)) hd.1
  have hf := f64_factor (div_nonneg hdn hp.le)
  rw [hu] at hf
  constructor
  · refine le_trans ?_ hf.1
    have e : D / V * ((1 - u) ^ (l.length + 2) / (1 + u) ^ l.length) =
        D * (1 - u) ^ (l.length + 1) / (V * (1 + u) ^ l.length) * (1 - u) := by
      field_simp
      ring
    rw [e]
    apply mul_le_mul_of_nonneg_right _ (by linarith)
    exact div_le_div₀ hdn hd.1 hp hv.2
  · refine le_trans hf.2 ?_
    have e : D / V * ((1 + u) ^ (l.length + 2) / (1 - u) ^ l.length) =
        D * (1 + u) ^ (l.length + 1) / (V * (1 - u) ^ l.length) * (1 + u) := by
      field_simp
      ring
    rw [e]
    apply mul_le_mul_of_nonneg_right _ (by linarith)
    exact div_le_div₀ (mul_nonneg hD (pow_nonneg (by linarith) _)) hd.2 (mul_pos hVpos q1) hv.1

example : (∀ t ∈ ([(3, 1 / 2), (5, 2)] : List (ℚ × ℚ)), 0 ≤ t.1 ∧ 0 ≤ t.2) ∧
    |vwap64 [(3, 1 / 2), (5, 2)] - 23 / 5| ≤ 1 / 2 ^ 51 := by decide +kernel

/-- **C88.** Volumes that are multiples of a power of two, with a total of at most `2^53` of them, are added exactly. -/
theorem C88_exact_volumes (zs : List Int) (k : Int) (hz : ∀ z ∈ zs, 0 ≤ z) (hs : zs.sum ≤ 2 ^ 53) :
    sum64 (zs.map (fun z : Int => (z : ℚ) * 2 ^ k)) = (zs.sum : ℚ) * 2 ^ k := by
  have key : ∀ (l : List Int) (s : Int), (∀ z ∈ l, 0 ≤ z) → 0 ≤ s → s + l.sum ≤ 2 ^ 53 →
      (l.map (fun z : Int => (z : ℚ) * 2 ^ k)).foldl (fun s v => f64 (s + v)) ((s : ℚ) * 2 ^ k) = ((s + l.sum : Int) : ℚ) * 2 ^ k := by
    intro l
    induction l with
    | nil => intro s _ _ _; simp
    | cons a l ih =>
      intro s hl h0 hb
      rw [List.sum_cons] at hb ⊢
      have ha := hl a (by simp)
      have hln : 0 ≤ l.sum := List.sum_nonneg (fun z hz => hl z (by simp [hz]))
      rw [List.map_cons, List.foldl_cons]
      have e : (s : ℚ) * 2 ^ k + (a : ℚ) * 2 ^ k = ((s + a : Int) : ℚ) * 2 ^ k := by push_cast; ring
      have hx : f64 (((s + a : Int) : ℚ) * 2 ^ k) = ((s + a : Int) : ℚ) * 2 ^ k :=
        rndBits_exact 53 (by norm_num) (s + a) k (by rw [abs_of_nonneg (by omega)]; omega)
      rw [e, hx, ih (s + a) (fun z hz => hl z (by simp [hz])) (by omega) (by omega)]
      congr 2
      ring
  have := key zs 0 hz le_rfl (by omega)
  simpa [sum64] using this

example : (∀ z ∈ ([3, 5, 7] : List Int), 0 ≤ z) ∧ ([3, 5, 7] : List Int).sum ≤ 2 ^ 53 ∧ sum64 [3 / 8, 5 / 8, 7 / 8] = 15 / 8 := by decide +kernel

/-- **C88.** For trades of non-negative volume the float64 volume-weighted price is 0 for a bar without volume, and the
total is positive exactly when some volume is: no sum of positive volumes rounds to 0. -/
theorem C88_vwap_no_volume (l : List (ℚ × ℚ)) (h : ∀ t ∈ l, 0 ≤ t.2) :
    ((∀ t ∈ l, t.2 = 0) → vwap64 l = 0) ∧ (0 < sum64 (l.map Prod.snd) ↔ ∃ t ∈ l, 0 < t.2) := by
  have hvn : ∀ v ∈ l.map Prod.snd, 0 ≤ v := by
    intro v hv
    obtain ⟨t, ht, rfl⟩ := List.mem_map.mp hv
    exact h t ht
  have hv := C88_volume _ hvn
  rw [List.length_map] at hv
  have hiff : 0 < sum64 (l.map Prod.snd) ↔ ∃ t ∈ l, 0 < t.2 := by
    constructor
    · intro hp
      by_contra hc
      have hz : (l.map Prod.snd).sum = 0 := by
        apply List.sum_eq_zero
        intro v hv
        obtain ⟨t, ht, rfl⟩ := List.mem_map.mp hv
        exact le_antisymm (not_lt.mp (fun hlt => hc ⟨t, ht, hlt⟩)) (h t ht)
      rw [hz] at hv
      linarith [hv.2]
    · rintro ⟨t, ht, htp⟩
      have h1 : t.2 ≤ (l.map Prod.snd).sum := List.single_le_sum hvn _ (List.mem_map_of_mem ht)
      have h2 : (0 : ℚ) < (1 - 1 / 2 ^ 53) ^ l.length := pow_pos (by norm_num) _
      have h3 : 0 < (l.map Prod.snd).sum * (1 - 1 / 2 ^ 53) ^ l.length := mul_pos (by linarith) h2
      linarith [hv.1]
  refine ⟨fun hz => ?_, hiff⟩
  unfold vwap64
  rw [if_neg]
  intro hp
  obtain ⟨t, ht, htp⟩ := hiff.mp hp
  exact absurd (hz t ht) (ne_of_gt htp)

example : vwap64 [(100, 0), (101, 0)] = 0 ∧ 0 < sum64 [0, 1 / 2 ^ 200] := by decide +kernel

/-! ### Violations -/

/-- A bar with one trade at price 1.08 (the float64 number) and volume 7.5: the volume-weighted price is above the high. -/
theorem C88_vwap_above_high :
    f64 (607985949695017 / 562949953421312) = 607985949695017 / 562949953421312 ∧
    f64 (108 / 100) = 607985949695017 / 562949953421312 ∧
    (607985949695017 / 562949953421312 : ℚ) < vwap64 [(607985949695017 / 562949953421312, 15 / 2)] := by
  refine ⟨by decide +kernel, by decide +kernel, by decide +kernel⟩

/-- The stored volume of a bar may be smaller than its only trade. -/
theorem C88_stored_below_trade : volume32 [16777217] = 16777216 ∧ f64 16777217 = 16777217 := by
  refine ⟨by decide +kernel, by decide +kernel⟩

/-- Stored buy and sell volumes need not add up to the stored volume. -/
theorem C88_buy_sell_total : volume32 [16777217, 3] = 16777220 ∧ volume32 [16777217] + volume32 [3] = 16777219 := by
  refine ⟨by decide +kernel, by decide +kernel⟩

/-! ### Example -/

/-- Non-vacuity: three trades with prices in [100, 101]. -/
example : (∀ t ∈ [((100 : ℚ), (1 : ℚ)), (101, 2), (100, 1 / 2)], (100 : ℚ) ≤ t.1 ∧ t.1 ≤ 101 ∧ 0 ≤ t.2) ∧
    0 < sum64 ([((100 : ℚ), (1 : ℚ)), (101, 2), (100, 1 / 2)].map Prod.snd) := by
  refine ⟨by decide +kernel, by decide +kernel⟩

end FinML

/-
C86: the time-bar clock as computed in float64 (`finmlkit/bar/logic.py:_time_bar_indexer`).

Nanosecond timestamps of the present are about `2^60.6`, where neighbouring float64 numbers are 256 apart.
-/
import Verif.Lemmas.Float64
import Verif.Lemmas.Search
import Verif.Props.TimeBars

set_option linter.unusedSectionVars false

namespace FinML

/-! ### Rounding of timestamps -/

theorem f64_near_ts (x : ℚ) (h0 : 0 ≤ x) (h : x < 2 ^ 61) : |f64 x - x| ≤ 128 := by
  rcases h0.eq_or_lt with rfl | hx
  · rw [f64_zero]; norm_num
  · obtain ⟨a, b⟩ := log2_bounds x hx
    unfold f64
    rw [rndBits_pos 53 x hx]
    refine (rndAt_near _ x).trans ?_
    have hl : Int.log 2 x < 61 := by
      have : (2 : ℚ) ^ Int.log 2 x < 2 ^ (61 : Int) := lt_of_le_of_lt a (by exact_mod_cast h)
      exact (zpow_lt_zpow_iff_right₀ (by norm_num)).mp this
    have : (2 : ℚ) ^ (Int.log 2 x - (((53 : Nat) : Int) - 1)) ≤ 2 ^ (8 : Int) :=
      zpow_le_zpow_right₀ (by norm_num) (by push_cast; omega)
    exact (div_le_div_of_nonneg_right this (by norm_num)).trans (by norm_num)

/-- Multiples of a whole number of seconds are float64 numbers. -/
theorem f64_secs (z n : Int) (h0 : 0 ≤ z) (hn : 0 ≤ n) (h : z * (n * 1000000000) ≤ 2 ^ 62) :
    f64 ((z * (n * 1000000000) : Int) : ℚ) = ((z * (n * 1000000000) : Int) : ℚ) := by
  have e : z * (n * 1000000000) = (z * n * 1953125) * 2 ^ 9 := by ring
  rw [e]
  apply f64_exact
  have : 0 ≤ z * n * 1953125 := by positivity
  rw [abs_of_nonneg this]
  norm_num at h ⊢
  linarith [e]

theorem f64_le_int {x : ℚ} {k : Int} (hk : f64 (k : ℚ) = k) (h : x ≤ k) : f64 x ≤ k := by
  have := f64_mono h
  rwa [hk] at this

theorem f64_ge_int {x : ℚ} {k : Int} (hk : f64 (k : ℚ) = k) (h : (k : ℚ) ≤ x) : (k : ℚ) ≤ f64 x := by
  have := f64_mono h
  rwa [hk] at this

theorem ceilQ_spec (x : ℚ) : ((ceilQ x : Int) : ℚ) - 1 < x ∧ x ≤ ceilQ x := by
  unfold ceilQ
  have h1 : ((-x).floor : ℚ) ≤ -x := Rat.floor_le _
  have h2 : -x < ((-x).floor : ℚ) + 1 := by exact_mod_cast Rat.lt_floor_add_one (-x)
  push_cast
  constructor <;> linarith

theorem ceilQ_int (z : Int) : ceilQ (z : ℚ) = z := by
  obtain ⟨a, b⟩ := ceilQ_spec (z : ℚ)
  have a' : ceilQ (z : ℚ) - 1 < z := by exact_mod_cast a
  have b' : z ≤ ceilQ (z : ℚ) := by exact_mod_cast b
  omega

theorem rint_add_small (m : Int) (r : ℚ) (h0 : 0 ≤ r) (h : r < 1 / 2 ∨ (r = 1 / 2 ∧ m % 2 = 0)) : rint ((m : ℚ) + r) = m := by
  have hr : r ≤ 1 / 2 := by
    rcases h with h | h
    · exact h.le
    · exact h.1.le
  have hf : ((m : ℚ) + r).floor = m := rat_floor_eq _ _ (by linarith) (by linarith)
  unfold rint
  simp only []
  rw [hf]
  have e : (m : ℚ) + r - m = r := by ring
  rw [e]
  rcases h with h | ⟨h, hm⟩
  · rw [if_pos h]
  · rw [if_neg (by rw [h]; norm_num), if_neg (by rw [h]; norm_num), if_pos hm]

/-- Adding one to a multiple of 512 beyond `2^53` has no effect. -/
theorem f64_add_one (w : Int) (h1 : 2 ^ 53 ≤ 512 * w) (h2 : 512 * w ≤ 2 ^ 61) : f64 (((512 * w : Int) : ℚ) + 1) = ((512 * w : Int) : ℚ) := by
  have hpos : (0 : ℚ) < ((512 * w : Int) : ℚ) := by
    have : 0 < 512 * w := by omega
    exact_mod_cast this
  obtain ⟨a, b⟩ := log2_bounds _ hpos
  have l1 : 52 < Int.log 2 ((512 * w : Int) : ℚ) := by
    have : (2 : ℚ) ^ (53 : Int) < 2 ^ (Int.log 2 ((512 * w : Int) : ℚ) + 1) := lt_of_le_of_lt (by exact_mod_cast h1) b
    have := (zpow_lt_zpow_iff_right₀ (by norm_num : (1 : ℚ) < 2)).mp this
    omega
  have l2 : Int.log 2 ((512 * w : Int) : ℚ) ≤ 61 := by
    have : (2 : ℚ) ^ Int.log 2 ((512 * w : Int) : ℚ) ≤ 2 ^ (61 : Int) := a.trans (by exact_mod_cast h2)
    exact (zpow_le_zpow_iff_right₀ (by norm_num)).mp this
  generalize hl : Int.log 2 ((512 * w : Int) : ℚ) = l at *
  obtain ⟨d, rfl⟩ : ∃ d : Nat, l = 52 + d := ⟨(l - 52).toNat, by omega⟩
  have hd1 : 1 ≤ d := by omega
  have hd9 : d ≤ 9 := by omega
  have hb : 512 * w < 2 ^ (53 + d) := by
    have e : (2 : ℚ) ^ (52 + (d : Int) + 1) = ((2 ^ (53 + d) : Int) : ℚ) := by
      have : (52 : Int) + d + 1 = ((53 + d : Nat) : Int) := by push_cast; ring
      rw [this, zpow_natCast]
      push_cast; rfl
    rw [e] at b
    exact_mod_cast b
  have hb1 : 512 * w + 1 < 2 ^ (53 + d) := by
    have e : (2 : Int) ^ (53 + d) = 512 * 2 ^ (44 + d) := by
      rw [show 53 + d = 9 + (44 + d) by ring, pow_add]; norm_num
    omega
  unfold f64
  rw [rndBits_binade 53 _ (52 + (d : Int)) (by linarith) (by
    have : (2 : ℚ) ^ (52 + (d : Int) + 1) = ((2 ^ (53 + d) : Int) : ℚ) := by
      have : (52 : Int) + d + 1 = ((53 + d : Nat) : Int) := by push_cast; ring
      rw [this, zpow_natCast]
      push_cast; rfl
    rw [this]
    exact_mod_cast hb1)]
  have he : (52 + (d : Int) - (((53 : Nat) : Int) - 1)) = d := by push_cast; ring
  rw [he]
  unfold rndAt
  rw [zpow_natCast]
  have hpd : (512 : ℚ) = 2 ^ d * 2 ^ (9 - d) := by rw [← pow_add, Nat.add_sub_cancel' hd9]; norm_num
  have hdiv : (((512 * w : Int) : ℚ) + 1) / 2 ^ d = ((w * 2 ^ (9 - d) : Int) : ℚ) + 1 / 2 ^ d := by
    push_cast
    rw [hpd]
    field_simp
  rw [hdiv, rint_add_small]
  · push_cast
    rw [hpd]
    ring
  · positivity
  · rcases Nat.lt_or_ge 1 d with h | h
    · left
      have : (2 : ℚ) ^ 2 ≤ 2 ^ d := pow_le_pow_right₀ (by norm_num) h
      rw [div_lt_div_iff₀ (by positivity) (by norm_num)]
      linarith
    · right
      have : d = 1 := by omega
      subst this
      refine ⟨by norm_num, ?_⟩
      norm_num
      omega

/-! ### The clock -/

/-- Floor division of two floats whose floored quotient times the divisor is a float. -/
theorem floorDiv64_eq (a : ℚ) (I k : Int) (hI : 0 < I) (h1 : ((k * I : Int) : ℚ) ≤ a) (h2 : a < (((k + 1) * I : Int) : ℚ))
    (he : f64 ((k * I : Int) : ℚ) = ((k * I : Int) : ℚ)) (hk : f64 (k : ℚ) = k) : floorDiv64 a (I : ℚ) = k := by
  have hIq : (0 : ℚ) < I := by exact_mod_cast hI
  have hf : (a / I).floor = k := by
    apply rat_floor_eq
    · rw [le_div_iff₀ hIq]; exact_mod_cast h1
    · rw [div_lt_iff₀ hIq]; push_cast at h2; linarith
  unfold floorDiv64
  simp only []
  rw [hf]
  have e1 : a - (a - (I : ℚ) * k) = ((k * I : Int) : ℚ) := by push_cast; ring
  have e2 : ((k * I : Int) : ℚ) / I = k := by push_cast; field_simp
  have e3 : ((k : ℚ)).floor = k := rat_floor_eq _ _ le_rfl (by linarith)
  rw [e1, he, e2, hk, e3, if_neg (by norm_num)]

/-- **C86.** The floor division of floats gives the exact floor as long as the quotient is below `2^50`: a quotient rounded to just
below the integer is corrected. -/
theorem C86_floor_division (a b : ℚ) (hb : 0 < b) (ha : 0 ≤ a) (h : a / b < 2 ^ 50) : floorDiv64 a b = ((a / b).floor : ℚ) := by
  obtain ⟨k, hk⟩ : ∃ k : Int, (a / b).floor = k := ⟨_, rfl⟩
  have hkq : 0 ≤ a / b := div_nonneg ha hb.le
  have hk0 : (0 : ℚ) ≤ k := by
    have : 0 ≤ k := by rw [← hk]; exact Rat.le_floor_iff.mpr (by exact_mod_cast hkq)
    exact_mod_cast this
  have hk1 : (k : ℚ) < 2 ^ 50 := lt_of_le_of_lt (by rw [← hk]; exact Rat.le_floor_iff.mp le_rfl) h
  unfold floorDiv64
  simp only []
  rw [hk]
  have e1 : a - (a - b * (k : ℚ)) = k * b := by ring
  rw [e1]
  obtain ⟨r, hr⟩ : ∃ r, r = f64 ((k : ℚ) * b) / b := ⟨_, rfl⟩
  have hr1 : |r - k| ≤ k / 2 ^ 53 := by
    have h1 := f64_relErr ((k : ℚ) * b)
    rw [abs_of_nonneg (by positivity : (0 : ℚ) ≤ k * b)] at h1
    have e : r - k = (f64 ((k : ℚ) * b) - k * b) / b := by rw [hr]; field_simp
    rw [e, abs_div, abs_of_pos hb, div_le_iff₀ hb]
    calc _ ≤ _ := h1
      _ = _ := by ring
  have hr0 : 0 ≤ r := by rw [hr]; exact div_nonneg (f64_nonneg (by positivity)) hb.le
  have h2 := f64_relErr r
  rw [abs_of_nonneg hr0] at h2
  rw [← hr]
  obtain ⟨d, hd⟩ : ∃ d, d = f64 r := ⟨_, rfl⟩
  rw [← hd] at h2 ⊢
  have a1 := abs_le.mp hr1
  have a2 := abs_le.mp h2
  have up : d < k + 1 / 2 := by norm_num at a1 a2 hk1 ⊢; linarith
  have lo : (k : ℚ) - 1 / 2 < d := by norm_num at a1 a2 hk1 ⊢; linarith
  rcases le_or_gt (k : ℚ) d with hc | hc
  · rw [rat_floor_eq d k hc (by linarith), if_neg (by linarith)]
  · have : d.floor = k - 1 := rat_floor_eq d (k - 1) (by push_cast; linarith) (by push_cast; linarith)
    rw [this, if_pos (by push_cast; linarith)]
    push_cast; ring

/-- The correction is needed: the float next to 1.1 times 15, divided by it, is rounded to just below 15. -/
example : (f64 (f64 (15 * f64 (11 / 10)) / f64 (11 / 10))).floor = 14 ∧ floorDiv64 (f64 (413 / 25)) (f64 (11 / 10)) = 15 := by
  decide +kernel

/-- **C86.** For whole seconds `n`, a last trade beyond `2^53` ns and everything below `2^61` ns (year 2043) the float64 clock
is the run of multiples `k0·I … k1·I` of the interval, where `k0` is at most 128 ns too late for the first trade and `k1` at most
384 ns too early for the last trade. -/
theorem C86_clock (t0 tl : Int) (ts : List Int) (n : Int) (hn : 1 ≤ n) (h0 : 0 ≤ t0) (h01 : t0 ≤ tl) (hlo : 2 ^ 53 ≤ tl)
    (hhi : tl + 2 * (n * 1000000000) ≤ 2 ^ 61) (hhd : ts.headD 0 = t0) (hlast : ts.getLastD 0 = tl) :
    ∃ k0 k1 : Int, k0 ≤ k1 + 1 ∧ timeBarClock64 ts n
        = (List.range (k1 + 1 - k0).toNat).map (fun i : Nat => (k0 + (i : Int)) * (n * 1000000000)) ∧
      k0 * (n * 1000000000) ≤ t0 + 128 ∧ t0 < (k0 + 1) * (n * 1000000000) ∧
      (k1 - 1) * (n * 1000000000) < tl ∧ tl ≤ k1 * (n * 1000000000) + 384 := by
  obtain ⟨I, hI⟩ : ∃ I, I = n * 1000000000 := ⟨_, rfl⟩
  have hIpos : 1000000000 ≤ I := by omega
  have hexact : ∀ z : Int, 0 ≤ z → z * I ≤ 2 ^ 62 → f64 ((z * I : Int) : ℚ) = ((z * I : Int) : ℚ) := by
    intro z hz hle
    rw [hI] at hle ⊢
    exact f64_secs z n hz (by omega) hle
  have hsmall : ∀ z : Int, 0 ≤ z → z ≤ 2 ^ 53 → f64 (z : ℚ) = z := fun z h1 h2 => f64_int z (by rwa [abs_of_nonneg h1])
  have hIq : (0 : ℚ) < I := by
    have : 0 < I := by omega
    exact_mod_cast this
  have hIf : f64 ((n : ℚ) * 1000000000) = I := by
    have := hexact 1 (by norm_num) (by omega)
    rw [one_mul] at this
    rw [← this, hI]
    push_cast
    rfl
  rw [← hI] at hhi ⊢
  -- rounded timestamps
  have hr0n := f64_near_ts (t0 : ℚ) (by exact_mod_cast h0) (by
    have : t0 < 2 ^ 61 := by omega
    exact_mod_cast this)
  have hr1n := f64_near_ts (tl : ℚ) (by exact_mod_cast h0.trans h01) (by
    have : tl < 2 ^ 61 := by omega
    exact_mod_cast this)
  have hr0p : 0 ≤ f64 (t0 : ℚ) := f64_nonneg (by exact_mod_cast h0)
  have hr1p : 0 ≤ f64 (tl : ℚ) := f64_nonneg (by exact_mod_cast h0.trans h01)
  have hr01 : f64 (t0 : ℚ) ≤ f64 (tl : ℚ) := f64_mono (by exact_mod_cast h01)
  have hr1b : f64 (tl : ℚ) ≤ 2 ^ 61 := by
    have h := f64_le_int (x := (tl : ℚ)) (k := 2 ^ 61) (by simpa using f64_exact 1 61 (by norm_num)) (by
      have : tl ≤ 2 ^ 61 := by omega
      exact_mod_cast this)
    exact_mod_cast h
  rw [abs_le] at hr0n hr1n
  have hmono0 : ∀ z : Int, 0 ≤ z → z * I ≤ 2 ^ 62 → t0 ≥ z * I → ((z * I : Int) : ℚ) ≤ f64 (t0 : ℚ) := by
    intro z hz hle ht
    exact f64_ge_int (hexact z hz hle) (by exact_mod_cast ht)
  generalize hr0 : f64 (t0 : ℚ) = r0 at *
  generalize hr1 : f64 (tl : ℚ) = r1 at *
  -- k0
  obtain ⟨k0, hk0⟩ : ∃ k0, k0 = (r0 / I).floor := ⟨_, rfl⟩
  have hk0a : ((k0 * I : Int) : ℚ) ≤ r0 := by
    have h := Rat.floor_le (r0 / I)
    rw [← hk0, le_div_iff₀ hIq] at h
    exact_mod_cast h
  have hk0b : r0 < (((k0 + 1) * I : Int) : ℚ) := by
    have h : r0 / I < ((r0 / I).floor : ℚ) + 1 := by exact_mod_cast Rat.lt_floor_add_one (r0 / I)
    rw [← hk0, div_lt_iff₀ hIq] at h
    push_cast
    exact h
  have hk0n : 0 ≤ k0 := by
    by_contra hc
    have : (k0 + 1) * I ≤ 0 := by nlinarith
    have : (((k0 + 1) * I : Int) : ℚ) ≤ 0 := by exact_mod_cast this
    linarith
  have hk0t : k0 * I ≤ t0 + 128 := by
    have : ((k0 * I : Int) : ℚ) ≤ ((t0 + 128 : Int) : ℚ) := by push_cast at hk0a ⊢; linarith [hr0n.2]
    exact_mod_cast this
  have hk0t' : t0 < (k0 + 1) * I := by
    by_contra hc
    rw [not_lt] at hc
    have := hmono0 (k0 + 1) (by omega) (by omega) hc
    linarith
  have hle53 : ∀ z : Int, 0 ≤ z → z * I ≤ 2 ^ 62 → z ≤ 2 ^ 53 := by
    intro z hz hle
    nlinarith
  have hdiv : floorDiv64 r0 (I : ℚ) = k0 := by
    apply floorDiv64_eq r0 I k0 (by omega) hk0a hk0b (hexact k0 hk0n (by omega))
    exact hsmall k0 hk0n (hle53 k0 hk0n (by omega))
  -- k1
  obtain ⟨k1, hk1⟩ : ∃ k1, k1 = ceilQ (f64 (r1 / I)) := ⟨_, rfl⟩
  have hq := ceilQ_spec (f64 (r1 / I))
  rw [← hk1] at hq
  have hqp : 0 ≤ f64 (r1 / I) := f64_nonneg (div_nonneg hr1p hIq.le)
  have hk1n : 0 ≤ k1 := by
    have : (0 : ℚ) ≤ k1 := hqp.trans hq.2
    exact_mod_cast this
  have hqr := f64_relErr (r1 / I)
  rw [abs_of_nonneg (div_nonneg hr1p hIq.le), abs_le] at hqr
  have hk1up : (k1 - 1) * I < tl := by
    by_contra hc
    rw [not_lt] at hc
    -- the multiple of the interval at or above the last trade
    obtain ⟨c, hcd⟩ : ∃ c, c = ceilDiv tl I := ⟨_, rfl⟩
    have c1 := ceilDiv_mul_ge tl (i := I) (by omega)
    have c2 := ceilDiv_mul_lt tl (i := I) (by omega)
    rw [← hcd] at c1 c2
    have hc0 : 0 ≤ c := by nlinarith
    have hcb : c * I ≤ 2 ^ 62 := by omega
    have hck : c ≤ k1 - 1 := by
      by_contra hcc
      have : (k1 - 1) * I ≤ (c - 1) * I := Int.mul_le_mul_of_nonneg_right (by omega) (by omega)
      have e : (c - 1) * I = c * I - I := by ring
      omega
    have hr1c : r1 ≤ ((c * I : Int) : ℚ) := by
      rw [← hr1]
      exact f64_le_int (hexact c hc0 hcb) (by exact_mod_cast c1)
    have : f64 (r1 / I) ≤ c := by
      apply f64_le_int (hsmall c hc0 (hle53 c hc0 hcb))
      rw [div_le_iff₀ hIq]
      exact_mod_cast hr1c
    have hcq : (c : ℚ) ≤ (k1 : ℚ) - 1 := by exact_mod_cast hck
    linarith [hq.1]
  have hk1lo : tl ≤ k1 * I + 384 := by
    have h1 : r1 / I ≤ k1 + r1 / I / 2 ^ 53 := by linarith [hqr.1, hq.2]
    have h2 : r1 ≤ k1 * I + r1 / 2 ^ 53 := by
      have := mul_le_mul_of_nonneg_right h1 hIq.le
      have e : r1 / I * I = r1 := by field_simp
      have e2 : (k1 + r1 / I / 2 ^ 53) * I = k1 * I + r1 / 2 ^ 53 := by field_simp
      rwa [e, e2] at this
    have h3 : r1 / 2 ^ 53 ≤ 256 := by
      rw [div_le_iff₀ (by norm_num)]
      norm_num at hr1b ⊢
      exact hr1b
    have h4 : (tl : ℚ) ≤ ((k1 * I + 384 : Int) : ℚ) := by push_cast; linarith [hr1n.1]
    exact_mod_cast h4
  have e1 : (k1 - 1) * I = k1 * I - I := by ring
  have e2 : (k1 + 1) * I = k1 * I + I := by ring
  have hk1b : (k1 + 1) * I ≤ 2 ^ 61 := by omega
  have hk01 : k0 ≤ k1 + 1 := by
    by_contra hc
    have : (k1 + 2) * I ≤ k0 * I := Int.mul_le_mul_of_nonneg_right (by omega) (by omega)
    have e3 : (k1 + 2) * I = k1 * I + 2 * I := by ring
    omega
  refine ⟨k0, k1, hk01, ?_, hk0t, hk0t', hk1up, hk1lo⟩
  -- the computation
  have hstop : f64 (f64 (((k1 * I : Int) : ℚ) + I) + 1) = (((k1 + 1) * I : Int) : ℚ) := by
    have e : ((k1 * I : Int) : ℚ) + I = (((k1 + 1) * I : Int) : ℚ) := by push_cast; ring
    rw [e, hexact (k1 + 1) (by omega) (by omega)]
    have e512 : (k1 + 1) * I = 512 * ((k1 + 1) * n * 1953125) := by rw [hI]; ring
    have hlow : 2 ^ 53 ≤ (k1 + 1) * I := by omega
    rw [e512] at hlow hk1b ⊢
    exact f64_add_one _ hlow hk1b
  unfold timeBarClock64
  simp only []
  rw [hhd, hlast, hIf, hr0, hr1, hdiv, ← hk1]
  have p0 : (k0 : ℚ) * I = ((k0 * I : Int) : ℚ) := by push_cast; rfl
  have p1 : (k1 : ℚ) * I = ((k1 * I : Int) : ℚ) := by push_cast; rfl
  rw [p0, p1, hexact k0 hk0n (by omega), hexact k1 hk1n (by omega), hstop]
  unfold arange64
  have hd : (((k1 + 1) * I : Int) : ℚ) - ((k0 * I : Int) : ℚ) = (((k1 + 1 - k0) * I : Int) : ℚ) := by push_cast; ring
  have hdb : (k1 + 1 - k0) * I ≤ 2 ^ 62 := by nlinarith
  rw [hd, hexact (k1 + 1 - k0) (by omega) hdb]
  have hqd : (((k1 + 1 - k0) * I : Int) : ℚ) / I = ((k1 + 1 - k0 : Int) : ℚ) := by
    push_cast; field_simp
  rw [hqd, hsmall _ (by omega) (hle53 _ (by omega) hdb), ceilQ_int]
  apply List.map_congr_left
  intro i hi
  rw [List.mem_range] at hi
  have hik : (i : Int) ≤ k1 - k0 := by omega
  have hib : (i : Int) * I ≤ 2 ^ 62 := by nlinarith
  have hib2 : (k0 + (i : Int)) * I ≤ 2 ^ 62 := by nlinarith
  have p2 : (i : ℚ) * I = (((i : Int) * I : Int) : ℚ) := by push_cast; rfl
  have p3 : ((k0 * I : Int) : ℚ) + (((i : Int) * I : Int) : ℚ) = (((k0 + (i : Int)) * I : Int) : ℚ) := by push_cast; ring
  rw [p2, hexact _ (by omega) hib, p3, hexact _ (by omega) hib2]
  exact rat_floor_eq _ _ le_rfl (by linarith)

example : let ts : List Int := [1700000000500000000, 1700000002300000000]
    2 ^ 53 ≤ ts.getLastD 0 ∧ ts.getLastD 0 + 2 * (1 * 1000000000) ≤ 2 ^ 61 ∧
    timeBarClock64 ts 1 = [1700000000000000000, 1700000001000000000, 1700000002000000000, 1700000003000000000] := by decide +kernel

theorem clock_exact (ts : List Int) (I k0 k1 : Int) (hI : 0 < I) (h01 : k0 ≤ k1 + 1) (a1 : k0 * I ≤ ts.headD 0)
    (a2 : ts.headD 0 < (k0 + 1) * I) (b1 : (k1 - 1) * I < ts.getLastD 0) (b2 : ts.getLastD 0 ≤ k1 * I) :
    (List.range (k1 + 1 - k0).toNat).map (fun i : Nat => (k0 + (i : Int)) * I) = (timeBarClock ts I).dropLast := by
  have e0 : ts.headD 0 / I = k0 := by
    apply le_antisymm
    · have := Int.ediv_lt_of_lt_mul hI a2
      omega
    · exact (Int.le_ediv_iff_mul_le hI).mpr a1
  have e1 : ceilDiv (ts.getLastD 0) I = k1 := by
    have c1 := ceilDiv_mul_ge (ts.getLastD 0) hI
    have c2 := ceilDiv_mul_lt (ts.getLastD 0) hI
    generalize ceilDiv (ts.getLastD 0) I = c at *
    have h1 : c < k1 + 1 := by
      by_contra hc
      have : (k1 + 1) * I ≤ c * I := Int.mul_le_mul_of_nonneg_right (by omega) hI.le
      have e : (k1 + 1) * I = k1 * I + I := by ring
      omega
    have h2 : k1 - 1 < c := by
      by_contra hc
      have : c * I ≤ (k1 - 1) * I := Int.mul_le_mul_of_nonneg_right (by omega) hI.le
      omega
    omega
  unfold timeBarClock
  simp only []
  rw [e0, e1]
  unfold arange
  have hcount : (k1 * I + I + 1 - k0 * I + I - 1) / I = k1 + 1 - k0 + 1 := by
    have : k1 * I + I + 1 - k0 * I + I - 1 = (k1 + 1 - k0 + 1) * I := by ring
    rw [this, Int.mul_ediv_cancel _ hI.ne']
  rw [hcount]
  have hn : (k1 + 1 - k0 + 1).toNat = (k1 + 1 - k0).toNat + 1 := by omega
  rw [hn, List.range_succ, List.map_append, List.map_cons, List.map_nil, List.dropLast_concat]
  apply List.map_congr_left
  intro i _
  ring

/-- **C86.** On microsecond timestamps the float64 clock is the exact clock without its last tick (so there is no empty bar
after the last trade, unlike in exact arithmetic). -/
theorem C86_exact (ts : List Int) (n : Int) (hn : 1 ≤ n) (h0 : 0 ≤ ts.headD 0) (h01 : ts.headD 0 ≤ ts.getLastD 0)
    (hlo : 2 ^ 53 ≤ ts.getLastD 0) (hhi : ts.getLastD 0 + 2 * (n * 1000000000) ≤ 2 ^ 61) (hd0 : 1000 ∣ ts.headD 0)
    (hdl : 1000 ∣ ts.getLastD 0) : timeBarClock64 ts n = (timeBarClock ts (n * 1000000000)).dropLast := by
  obtain ⟨k0, k1, h01', hc, a1, a2, b1, b2⟩ := C86_clock _ _ ts n hn h0 h01 hlo hhi rfl rfl
  rw [hc]
  obtain ⟨a, ha⟩ := hd0
  obtain ⟨b, hb⟩ := hdl
  have e0 : k0 * (n * 1000000000) = 1000 * (k0 * n * 1000000) := by ring
  have e1 : k1 * (n * 1000000000) = 1000 * (k1 * n * 1000000) := by ring
  apply clock_exact ts _ k0 k1 (by omega) h01' _ a2 b1
  · omega
  · omega

example : let ts : List Int := [1700000000500000000, 1700000002300000000]
    1000 ∣ ts.headD 0 ∧ 1000 ∣ ts.getLastD 0 ∧ timeBarClock64 ts 1 = (timeBarClock ts 1000000000).dropLast := by decide +kernel

/-- **C86.** For any clock: trade `j` is in bar `i` exactly when its timestamp is in `(clock[i], clock[i+1]]`. -/
theorem C86_assignment (ts : List Int) (secs : ℚ) (hs : ts.Pairwise (· ≤ ·)) (i j : Nat)
    (hi : i + 1 < (timeBarIndexer64 ts secs).1.length) (hj : j < ts.length) :
    InBar (timeBarIndexer64 ts secs).2 i j ↔
      (timeBarIndexer64 ts secs).1[i] < ts[j] ∧ ts[j] ≤ (timeBarIndexer64 ts secs).1[i + 1] := by
  unfold InBar
  simp only [timeBarIndexer64, List.length_map, List.getElem_map] at hi ⊢
  have e1 := lt_searchRight hs ((timeBarClock64 ts secs)[i]) j hj
  have e2 := lt_searchRight hs ((timeBarClock64 ts secs)[i + 1]) j hj
  constructor
  · rintro ⟨_, h1, h2⟩
    constructor
    · by_contra hc
      have := e1.mpr (by omega); omega
    · exact e2.mp (by omega)
  · rintro ⟨h1, h2⟩
    refine ⟨hi, ?_, ?_⟩
    · by_contra hc
      have := e1.mp (by omega); omega
    · have := e2.mpr h2; omega

example : let ts : List Int := [1700000000500000000, 1700000002300000000]
    ts.Pairwise (· ≤ ·) ∧ 0 + 1 < (timeBarIndexer64 ts 1).1.length ∧ (timeBarIndexer64 ts 1).2 = [-1, 0, 0, 1] := by decide +kernel

/-- **C86.** On microsecond timestamps every trade after the first clock tick is in exactly one bar. -/
theorem C86_unique_bar (ts : List Int) (n : Int) (hn : 1 ≤ n) (hs : ts.Pairwise (· ≤ ·)) (h0 : ∀ t ∈ ts, 0 ≤ t)
    (hlo : 2 ^ 53 ≤ ts.getLastD 0) (hhi : ts.getLastD 0 + 2 * (n * 1000000000) ≤ 2 ^ 61) (hus : ∀ t ∈ ts, 1000 ∣ t)
    (j : Nat) (hj : j < ts.length) (c₀ : Int) (hc : (timeBarIndexer64 ts n).1.head? = some c₀) (hlt : c₀ < ts[j]) :
    ∃! i, InBar (timeBarIndexer64 ts n).2 i j := by
  have hne : ts ≠ [] := by rintro rfl; simp at hj
  have hI : 0 < n * 1000000000 := by omega
  have hhd : ts.headD 0 = ts.head hne := by
    cases ts with
    | nil => exact absurd rfl hne
    | cons a l => rfl
  have hl : ts.getLastD 0 = ts.getLast hne := by
    rw [List.getLastD_eq_getLast?, List.getLast?_eq_some_getLast hne]; rfl
  have h01 : ts.headD 0 ≤ ts.getLastD 0 := by
    rw [hhd, hl, List.getLast_eq_getElem, List.head_eq_getElem]
    exact sorted_get_le hs (by omega) (by omega) (by omega)
  have hex := C86_exact ts n hn (by rw [hhd]; exact h0 _ (List.head_mem hne)) h01 hlo hhi
    (by rw [hhd]; exact hus _ (List.head_mem hne)) (by rw [hl]; exact hus _ (List.getLast_mem hne))
  have hclock : (timeBarIndexer64 ts n).1 = ((timeBarIndexer ts (n * 1000000000)).1).dropLast := hex
  have hC := C01_timeBars_clock ts (n * 1000000000) hI hne hs
  simp only at hC
  obtain ⟨_, hstep, _, ⟨c1, hc1, hc1a, hc1b⟩, hlen⟩ := hC
  generalize hI' : n * 1000000000 = I at *
  have hcl : (timeBarIndexer64 ts n).1.length = (timeBarIndexer ts I).1.length - 1 := by rw [hclock, List.length_dropLast]
  have hget : ∀ (i : Nat) (h : i < (timeBarIndexer64 ts n).1.length),
      (timeBarIndexer64 ts n).1[i] = (timeBarIndexer ts I).1[i]'(by omega) := by
    intro i h
    simp only [hclock, List.getElem_dropLast]
  have hposl : 0 < (timeBarIndexer64 ts n).1.length := by
    rcases Nat.eq_zero_or_pos (timeBarIndexer64 ts n).1.length with h | h
    · rw [List.length_eq_zero_iff.mp h] at hc; simp at hc
    · exact h
  have hc' : (timeBarIndexer ts I).1.head? = some c₀ := by
    rw [List.head?_eq_getElem?, List.getElem?_eq_getElem hposl, hget 0 hposl] at hc
    rw [List.head?_eq_getElem?, List.getElem?_eq_getElem (by omega)]
    exact hc
  obtain ⟨i, hin, huniq⟩ := C02_timeBars_unique_bar ts I hI hs j hj c₀ hc' hlt
  have hlast : ts[j] ≤ ts.getLast hne := by
    rw [List.getLast_eq_getElem]
    exact sorted_get_le hs hj (by omega) (by omega)
  have hiff : ∀ i, InBar (timeBarIndexer64 ts n).2 i j ↔ InBar (timeBarIndexer ts I).2 i j := by
    intro i
    constructor
    · intro h
      have hi : i + 1 < (timeBarIndexer64 ts n).1.length := by
        obtain ⟨h, _⟩ := h
        simpa [timeBarIndexer64] using h
      rw [C86_assignment ts n hs i j hi hj, hget i (by omega), hget (i + 1) hi] at h
      rw [C02_timeBars_assignment ts I hs i j (by omega) hj]
      exact h
    · intro h
      have hi : i + 1 < (timeBarIndexer ts I).1.length := by
        obtain ⟨h, _⟩ := h; rw [hlen] at h; exact h
      rw [C02_timeBars_assignment ts I hs i j hi hj] at h
      have hi2 : i + 1 < (timeBarIndexer64 ts n).1.length := by
        by_contra hcon
        -- then bar `i` is the last bar of the exact clock, which is empty
        have hil : i + 1 = (timeBarIndexer ts I).1.length - 1 := by omega
        have hce : c1 = (timeBarIndexer ts I).1[i + 1] := by
          rw [List.getLast?_eq_getElem?, ← hil, List.getElem?_eq_getElem hi] at hc1
          simpa using hc1.symm
        have := hstep i hi
        omega
      rw [C86_assignment ts n hs i j hi2 hj, hget i (by omega), hget (i + 1) hi2]
      exact h
  exact ⟨i, (hiff i).mpr hin, fun i' h => huniq i' ((hiff i').mp h)⟩

example : let ts : List Int := [1700000000500000000, 1700000002300000000]
    (∀ t ∈ ts, 0 ≤ t ∧ 1000 ∣ t) ∧ (timeBarIndexer64 ts 1).1.head? = some 1700000000000000000 := by decide +kernel

/-! ### Violations off the microsecond grid -/

/-- The first trade, one nanosecond before a minute, is in no bar: the clock starts after it. -/
theorem C86_first_trade_lost :
    timeBarIndexer64 [1700000039999999999, 1700000045000000000] 60
      = ([1700000040000000000, 1700000100000000000], [0, 1]) ∧
    (timeBarIndexer [1700000039999999999, 1700000045000000000] 60000000000).1.head? = some 1699999980000000000 ∧
    ∀ i, ¬ InBar (timeBarIndexer64 [1700000039999999999, 1700000045000000000] 60).2 i 0 := by
  have h : timeBarIndexer64 [1700000039999999999, 1700000045000000000] 60
      = ([1700000040000000000, 1700000100000000000], [0, 1]) := by decide +kernel
  refine ⟨h, by decide +kernel, ?_⟩
  rw [h]
  rintro i ⟨hi, h1, h2⟩
  simp only [List.length_cons, List.length_nil] at hi
  have : i = 0 := by omega
  subst this
  simp at h1

/-- The last trade, one nanosecond after a minute, is in no bar: the clock ends before it. -/
theorem C86_last_trade_lost :
    timeBarIndexer64 [1700000010000000000, 1700000040000000001] 60
      = ([1699999980000000000, 1700000040000000000], [-1, 0]) ∧
    ∀ i, ¬ InBar (timeBarIndexer64 [1700000010000000000, 1700000040000000001] 60).2 i 1 := by
  have h : timeBarIndexer64 [1700000010000000000, 1700000040000000001] 60
      = ([1699999980000000000, 1700000040000000000], [-1, 0]) := by decide +kernel
  refine ⟨h, ?_⟩
  rw [h]
  rintro i ⟨hi, h1, h2⟩
  simp only [List.length_cons, List.length_nil] at hi
  have : i = 0 := by omega
  subst this
  simp at h2

/-- Trades all exactly on one tick: a clock with one value, for which no bar can be built. -/
theorem C86_one_tick : timeBarIndexer64 [1700000040000000000, 1700000040000000000] 60 = ([1700000040000000000], [1]) ∧
    (timeBarIndexer [1700000040000000000, 1700000040000000000] 60000000000).1.length = 2 := by
  constructor <;> decide +kernel

/-! ### Example -/

/-- Non-vacuity of `C86_exact` and `C86_unique_bar`: millisecond timestamps in November 2023, minute bars. -/
example : timeBarIndexer64 [1700000010001000000, 1700000040000000000, 1700000040001000000] 60
    = ([1699999980000000000, 1700000040000000000, 1700000100000000000], [-1, 1, 2]) ∧
    (∀ t ∈ [1700000010001000000, 1700000040000000000, 1700000040001000000], (1000 : Int) ∣ t) ∧
    (2 : Int) ^ 53 ≤ 1700000010001000000 ∧ (1700000040001000000 : Int) + 2 * (60 * 1000000000) ≤ 2 ^ 61 := by
  refine ⟨by decide +kernel, by decide, by norm_num, by norm_num⟩

end FinML

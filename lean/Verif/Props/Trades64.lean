/-
C96: tick rule and merging of split trades in float arithmetic.
-/
import Verif.Model.Float64Trades
import Verif.Props.Directional64
import Verif.Props.TradeSide

set_option linter.unusedSectionVars false

namespace FinML

/-! ### Differences of grid prices -/

/-- The float difference of two different grid prices is at least half a step, with the sign of the step count. -/
theorem grid_diff (T : ℚ) (hT : 0 < T) (k j : Int) (hk : |k| ≤ 2 ^ 50) (hj : |j| ≤ 2 ^ 50) (h : j < k) :
    T / 2 ≤ f64 (f64 ((k : ℚ) * T) - f64 ((j : ℚ) * T)) := by
  have hkq : |(k : ℚ)| ≤ 2 ^ 50 := by exact_mod_cast hk
  have hjq : |(j : ℚ)| ≤ 2 ^ 50 := by exact_mod_cast hj
  have h1 := f64_relErr ((k : ℚ) * T)
  have h2 := f64_relErr ((j : ℚ) * T)
  rw [abs_mul, abs_of_pos hT] at h1 h2
  have b1 : |(k : ℚ)| * T ≤ 2 ^ 50 * T := mul_le_mul_of_nonneg_right hkq hT.le
  have b2 : |(j : ℚ)| * T ≤ 2 ^ 50 * T := mul_le_mul_of_nonneg_right hjq hT.le
  have hstep : T ≤ (k : ℚ) * T - (j : ℚ) * T := by
    have : (j : ℚ) + 1 ≤ k := by exact_mod_cast h
    nlinarith
  have l1 := (abs_le.mp h1).1
  have l2 := (abs_le.mp h2).2
  have hd : 3 / 4 * T ≤ f64 ((k : ℚ) * T) - f64 ((j : ℚ) * T) := by
    have c1 : |(k : ℚ)| * T / 2 ^ 53 ≤ T / 8 := by
      rw [div_le_iff₀ (by norm_num)]; norm_num at b1 ⊢; linarith
    have c2 : |(j : ℚ)| * T / 2 ^ 53 ≤ T / 8 := by
      rw [div_le_iff₀ (by norm_num)]; norm_num at b2 ⊢; linarith
    linarith
  generalize f64 ((k : ℚ) * T) - f64 ((j : ℚ) * T) = d at *
  have := (f64_factor (x := d) (by linarith)).1
  have : d * (1 / 2) ≤ f64 d * (1 / 2) + d / 8 := by
    have e : d * (1 - 1 / 2 ^ 53) ≤ f64 d := this
    norm_num at e
    linarith
  linarith

theorem grid_diff_neg (T : ℚ) (hT : 0 < T) (k j : Int) (hk : |k| ≤ 2 ^ 50) (hj : |j| ≤ 2 ^ 50) (h : k < j) :
    f64 (f64 ((k : ℚ) * T) - f64 ((j : ℚ) * T)) ≤ -(T / 2) := by
  have := grid_diff T hT j k hj hk h
  have e : f64 ((k : ℚ) * T) - f64 ((j : ℚ) * T) = -(f64 ((j : ℚ) * T) - f64 ((k : ℚ) * T)) := by ring
  rw [e, f64_neg]; linarith

/-- **C96 (tick rule).** On a price grid of any step `T` of at least `4e-12`, with every price stored as the nearest float64,
the inferred sides are those of the exact tick rule applied to the numbers of steps: no side is lost or invented by rounding. -/
theorem C96_sides (T : ℚ) (hT : 4 / 1000000000000 ≤ T) (ks : List Int) (hk : ∀ k ∈ ks, |k| ≤ 2 ^ 50) :
    tradeSideVector64 (ks.map (fun k : Int => f64 ((k : ℚ) * T))) = tradeSideVector 0 (ks.map (fun k : Int => (k : ℚ))) := by
  have hT0 : 0 < T := lt_of_lt_of_le (by norm_num) hT
  have heps : f64 (1 / 1000000000000) < T / 2 := by
    have := (f64_factor (x := 1 / 1000000000000) (by norm_num)).2
    norm_num at this ⊢
    linarith
  have heps0 : 0 ≤ f64 (1 / 1000000000000) := f64_nonneg (by norm_num)
  have step : ∀ (k j : Int) (s : Int), |k| ≤ 2 ^ 50 → |j| ≤ 2 ^ 50 →
      tradeSide64 (f64 ((k : ℚ) * T)) (f64 ((j : ℚ) * T)) s = tradeSide 0 (k : ℚ) (j : ℚ) s := by
    intro k j s h1 h2
    unfold tradeSide64 tradeSide
    rcases lt_trichotomy k j with h | h | h
    · have g := grid_diff_neg T hT0 k j h1 h2 h
      have hq : (k : ℚ) - j < 0 := by
        have : (k : ℚ) < j := by exact_mod_cast h
        linarith
      simp only
      rw [if_pos (by rw [abs_of_neg (by linarith)]; linarith), if_pos (by rw [abs_of_neg hq]; linarith)]
      unfold signK
      rw [if_neg (by linarith), if_pos (by linarith), if_neg (by linarith), if_pos hq]
    · subst h
      simp only [sub_self, f64_zero, abs_zero]
      rw [if_neg (by linarith), if_neg (by simp)]
    · have g := grid_diff T hT0 k j h1 h2 h
      have hq : 0 < (k : ℚ) - j := by
        have : (j : ℚ) < k := by exact_mod_cast h
        linarith
      simp only
      rw [if_pos (by rw [abs_of_pos (by linarith)]; linarith), if_pos (by rw [abs_of_pos hq]; linarith)]
      unfold signK
      rw [if_pos (by linarith), if_pos hq]
  have loop : ∀ (ks : List Int) (j : Int) (s : Int), |j| ≤ 2 ^ 50 → (∀ k ∈ ks, |k| ≤ 2 ^ 50) →
      tradeSideLoop64 (f64 ((j : ℚ) * T)) s (ks.map (fun k : Int => f64 ((k : ℚ) * T))) =
        tradeSideLoop 0 (j : ℚ) s (ks.map (fun k : Int => (k : ℚ))) := by
    intro ks
    induction ks with
    | nil => intro j s _ _; rfl
    | cons k ks ih =>
      intro j s hj hks
      simp only [List.map_cons, tradeSideLoop64, tradeSideLoop]
      rw [step k j s (hks k (by simp)) hj, ih k _ (hks k (by simp)) (fun x hx => hks x (by simp [hx]))]
  cases ks with
  | nil => rfl
  | cons k ks =>
    simp only [List.map_cons, tradeSideVector64, tradeSideVector]
    rw [loop ks k 0 (hk k (by simp)) (fun x hx => hk x (by simp [hx]))]

example : tradeSideVector64 [f64 (1 / 10), f64 (3 / 10), f64 (3 / 10), f64 (2 / 10)] = [0, 1, 1, -1] := by decide +kernel

/-! ### Merging -/

/-- The float32 sum of amounts, each rounded to float32 first. -/
def sum32 (l : List ℚ) : ℚ := l.foldl (fun s x => f32 (s + f32 x)) 0

/-- Two trades (prices in steps) agree on timestamp, price and, if known, side. -/
def SameTick (withSide : Bool) (a b : RawTrade ℚ) : Prop :=
  b.ts = a.ts ∧ b.price = a.price ∧ (withSide = true → b.maker = a.maker)

/-- `out` represents the block `b` of trades with prices in steps of `T`. -/
structure Represents32 (T : ℚ) (withSide : Bool) (b : List (RawTrade ℚ)) (out : MTrade ℚ) : Prop where
  nonempty : b ≠ []
  ts : ∀ x ∈ b, x.ts = out.ts
  price : ∀ x ∈ b, out.price = f64 (x.price * T)
  amount : out.amount = sum32 (b.map (·.amount))
  side : withSide = true → ∀ x ∈ b, out.side = if x.maker then -1 else 1
  uniform : ∀ h ∈ b.head?, ∀ x ∈ b.tail, SameTick withSide h x

/-- A trade with its price in steps of `T`, as stored. -/
def onGrid (T : ℚ) (r : RawTrade ℚ) : RawTrade ℚ := { r with price := f64 (r.price * T) }

theorem sameTrade64_iff (T : ℚ) (hT : 4 / 100000000 ≤ T) (withSide : Bool) (cur : MTrade ℚ) (h t : RawTrade ℚ)
    (hh : ∃ k : Int, |k| ≤ 2 ^ 50 ∧ h.price = k) (ht : ∃ k : Int, |k| ≤ 2 ^ 50 ∧ t.price = k)
    (h1 : cur.ts = h.ts) (h2 : cur.price = f64 (h.price * T)) (h3 : withSide = true → cur.side = makerSide h.maker) :
    sameTrade64 withSide cur (onGrid T t) = true ↔ SameTick withSide h t := by
  have hT0 : 0 < T := lt_of_lt_of_le (by norm_num) hT
  have htol : f64 (1 / 100000000) < T / 2 := by
    have := (f64_factor (x := 1 / 100000000) (by norm_num)).2
    norm_num at this ⊢
    linarith
  have htol0 : 0 < f64 (1 / 100000000) := by
    have := (f64_factor (x := 1 / 100000000) (by norm_num)).1
    norm_num at this ⊢
    linarith
  obtain ⟨k, hk, ek⟩ := hh
  obtain ⟨j, hj, ej⟩ := ht
  have hp : |f64 (f64 (t.price * T) - cur.price)| < f64 (1 / 100000000) ↔ t.price = h.price := by
    rw [h2, ek, ej]
    rcases lt_trichotomy j k with hlt | heq | hlt
    · have g := grid_diff_neg T hT0 j k hj hk hlt
      have : (j : ℚ) ≠ k := by exact_mod_cast hlt.ne
      simp only [this, iff_false, not_lt]
      rw [abs_of_neg (by linarith)]; linarith
    · subst heq; rw [sub_self, f64_zero, abs_zero]; exact ⟨fun _ => rfl, fun _ => htol0⟩
    · have g := grid_diff T hT0 j k hj hk hlt
      have : (j : ℚ) ≠ k := by exact_mod_cast hlt.ne'
      simp only [this, iff_false, not_lt]
      rw [abs_of_pos (by linarith)]; linarith
  unfold sameTrade64 SameTick onGrid
  simp only
  rw [h1]
  generalize f64 (1 / 100000000) = tol at hp
  cases withSide with
  | false => simp [hp]
  | true =>
    rw [h3 rfl]
    cases hm : h.maker <;> cases tm : t.maker <;> simp [makerSide, hp]

theorem sum32_snoc (l : List ℚ) (x : ℚ) : sum32 (l ++ [x]) = f32 (sum32 l + f32 x) := by simp [sum32]

theorem represents32_start (T : ℚ) (withSide : Bool) (t : RawTrade ℚ) :
    Represents32 T withSide [t] (MTrade.start32 withSide (onGrid T t)) := by
  refine ⟨by simp, ?_, ?_, ?_, ?_, ?_⟩
  · intro x hx; simp at hx; subst hx; rfl
  · intro x hx; simp at hx; subst hx; rfl
  · simp [MTrade.start32, onGrid, sum32, f32_idem]
  · intro w x hx; simp at hx; subst hx; simp only [MTrade.start32, onGrid, w, makerSide, if_true]; rfl
  · intro g _ x hx; simp at hx

theorem mergeLoop32_spec (T : ℚ) (hT : 4 / 100000000 ≤ T) (withSide : Bool) (ts : List (RawTrade ℚ))
    (hts : ∀ t ∈ ts, ∃ k : Int, |k| ≤ 2 ^ 50 ∧ t.price = k) (cur : MTrade ℚ)
    (h : RawTrade ℚ) (hh : ∃ k : Int, |k| ≤ 2 ^ 50 ∧ h.price = k) (tl : List (RawTrade ℚ))
    (hr : Represents32 T withSide (h :: tl) cur) :
    ∃ blocks : List (List (RawTrade ℚ)), blocks.flatten = (h :: tl) ++ ts ∧
      List.Forall₂ (Represents32 T withSide) blocks (mergeLoop32 withSide cur (ts.map (onGrid T))) ∧
      blocks.IsChain (fun b c => ∀ h ∈ b.head?, ∀ g ∈ c.head?, ¬ SameTick withSide h g) ∧
      (blocks.head?.bind List.head?) = some h := by
  induction ts generalizing cur h tl with
  | nil =>
    refine ⟨[h :: tl], by simp, ?_, by simp, by simp⟩
    exact List.Forall₂.cons hr List.Forall₂.nil
  | cons t ts ih =>
    have c1 : cur.ts = h.ts := (hr.ts h (by simp)).symm
    have c2 : cur.price = f64 (h.price * T) := hr.price h (by simp)
    have c3 : withSide = true → cur.side = makerSide h.maker := fun w => hr.side w h (by simp)
    have htk := hts t (by simp)
    have hts' : ∀ t ∈ ts, ∃ k : Int, |k| ≤ 2 ^ 50 ∧ t.price = k := fun x hx => hts x (by simp [hx])
    have hiff := sameTrade64_iff T hT withSide cur h t hh htk c1 c2 c3
    rw [List.map_cons]
    unfold mergeLoop32
    by_cases hs : sameTrade64 withSide cur (onGrid T t) = true
    · rw [if_pos hs]
      have hm := hiff.mp hs
      have hr' : Represents32 T withSide (h :: (tl ++ [t]))
          { cur with amount := f32 (cur.amount + f32 (onGrid T t).amount) } := by
        refine ⟨by simp, ?_, ?_, ?_, ?_, ?_⟩
        · intro x hx
          rw [← List.cons_append] at hx
          rcases List.mem_append.mp hx with hx | hx
          · exact hr.ts x hx
          · simp at hx; subst hx; rw [hm.1, ← c1]
        · intro x hx
          rw [← List.cons_append] at hx
          rcases List.mem_append.mp hx with hx | hx
          · exact hr.price x hx
          · simp at hx; subst hx; rw [hm.2.1]; exact c2
        · show f32 (cur.amount + f32 t.amount) = _
          rw [hr.amount, ← List.cons_append, List.map_append, List.map_singleton, sum32_snoc]
        · intro w x hx
          rw [← List.cons_append] at hx
          rcases List.mem_append.mp hx with hx | hx
          · exact hr.side w x hx
          · simp at hx; subst hx
            rw [hm.2.2 w]; exact hr.side w h (by simp)
        · intro g hg x hx
          simp at hg; subst hg
          rw [List.tail_cons] at hx
          rcases List.mem_append.mp hx with hx | hx
          · exact hr.uniform h (by simp) x (by simpa using hx)
          · simp at hx; subst hx; exact hm
      obtain ⟨bl, e1, e2, e3, e4⟩ := ih hts' _ h hh (tl ++ [t]) hr'
      exact ⟨bl, by rw [e1]; simp, e2, e3, e4⟩
    · rw [if_neg hs]
      obtain ⟨bl, e1, e2, e3, e4⟩ := ih hts' _ t htk [] (represents32_start T withSide t)
      refine ⟨(h :: tl) :: bl, by rw [List.flatten_cons, e1]; simp, List.Forall₂.cons hr e2, ?_, by simp⟩
      rw [List.isChain_cons]
      refine ⟨?_, e3⟩
      intro c hc h' hh' g hg
      simp at hh'; subst hh'
      cases bl with
      | nil => simp at hc
      | cons c' bl' =>
        simp at hc e4
        subst hc
        rw [Option.mem_def, e4] at hg
        cases Option.some.inj hg
        exact fun hm => hs (hiff.mpr hm)

/-- **C96 (merging).** For trades on a price grid of step `T` of at least `4e-8`, prices stored as nearest float64, the output is
the input grouped into consecutive maximal blocks of equal timestamp, equal price and equal side; each is represented by
its price and the float32 running sum of its amounts. -/
theorem C96_merge (T : ℚ) (hT : 4 / 100000000 ≤ T) (withSide : Bool) (input : List (RawTrade ℚ))
    (hin : ∀ t ∈ input, ∃ k : Int, |k| ≤ 2 ^ 50 ∧ t.price = k) :
    ∃ blocks : List (List (RawTrade ℚ)), blocks.flatten = input ∧
      List.Forall₂ (Represents32 T withSide) blocks (mergeSplitTrades32 withSide (input.map (onGrid T))) ∧
      blocks.IsChain (fun b c => ∀ h ∈ b.head?, ∀ g ∈ c.head?, ¬ SameTick withSide h g) := by
  cases input with
  | nil => exact ⟨[], rfl, List.Forall₂.nil, List.IsChain.nil⟩
  | cons t ts =>
    obtain ⟨bl, e1, e2, e3, _⟩ := mergeLoop32_spec T hT withSide ts (fun x hx => hin x (by simp [hx])) _ t
      (hin t (by simp)) [] (represents32_start T withSide t)
    exact ⟨bl, by rw [e1]; simp, e2, e3⟩

example : (4 / 100000000 : ℚ) ≤ 1 / 10 ∧ ∀ t ∈ ([⟨1, 5, 2, false⟩, ⟨1, 5, 3, false⟩] : List (RawTrade ℚ)), ∃ k : Int, |k| ≤ 2 ^ 50 ∧ t.price = k := by
  refine ⟨by norm_num, ?_⟩
  intro t ht
  simp only [List.mem_cons, List.not_mem_nil, or_false] at ht
  rcases ht with rfl | rfl <;> exact ⟨5, by norm_num, by norm_num⟩

/-- **C96 (amounts).** The stored amount of a block of `n` trades is within a factor `(1 ± 2^-24)^(n+1)` of the sum. -/
theorem C96_amount (l : List ℚ) (h : ∀ v ∈ l, 0 ≤ v) :
    l.sum * (1 - 1 / 2 ^ 24) ^ (l.length + 1) ≤ sum32 l ∧ sum32 l ≤ l.sum * (1 + 1 / 2 ^ 24) ^ (l.length + 1) := by
  induction l using List.reverseRecOn with
  | nil => simp [sum32]
  | append_singleton l x ih =>
    have hx : 0 ≤ x := h x (by simp)
    obtain ⟨i1, i2⟩ := ih (fun v hv => h v (by simp [hv]))
    have hS : 0 ≤ l.sum := List.sum_nonneg (fun v hv => h v (by simp [hv]))
    rw [sum32_snoc, List.sum_append, List.sum_singleton, List.length_append, List.length_singleton]
    have fx := f32_factor hx
    have u0 : (0 : ℚ) < 1 - 1 / 2 ^ 24 := by norm_num
    have p0 : 0 ≤ (1 - 1 / 2 ^ 24 : ℚ) ^ (l.length + 1) := pow_nonneg u0.le _
    have hs0 : 0 ≤ sum32 l := (mul_nonneg hS p0).trans i1
    have hf0 : 0 ≤ f32 x := (mul_nonneg hx u0.le).trans fx.1
    have ft := f32_factor (add_nonneg hs0 hf0)
    have q1 : (1 - 1 / 2 ^ 24 : ℚ) ^ (l.length + 1) ≤ 1 - 1 / 2 ^ 24 := by
      rw [pow_succ]
      exact mul_le_of_le_one_left u0.le (pow_le_one₀ u0.le (by norm_num))
    have q2 : (1 + 1 / 2 ^ 24 : ℚ) ≤ (1 + 1 / 2 ^ 24) ^ (l.length + 1) := by
      rw [pow_succ _ l.length]
      have u1 : (0 : ℚ) ≤ 1 + 1 / 2 ^ 24 := by norm_num
      have u2 : (1 : ℚ) ≤ 1 + 1 / 2 ^ 24 := by norm_num
      exact le_mul_of_one_le_left u1 (one_le_pow₀ u2)
    constructor
    · refine le_trans ?_ ft.1
      rw [pow_succ, ← mul_assoc]
      apply mul_le_mul_of_nonneg_right _ u0.le
      have : x * (1 - 1 / 2 ^ 24) ^ (l.length + 1) ≤ x * (1 - 1 / 2 ^ 24) := mul_le_mul_of_nonneg_left q1 hx
      rw [add_mul]; linarith [fx.1]
    · refine le_trans ft.2 ?_
      rw [pow_succ (1 + 1 / 2 ^ 24 : ℚ) (l.length + 1), ← mul_assoc]
      apply mul_le_mul_of_nonneg_right _ (by norm_num)
      have : x * (1 + 1 / 2 ^ 24) ≤ x * (1 + 1 / 2 ^ 24) ^ (l.length + 1) := mul_le_mul_of_nonneg_left q2 hx
      rw [add_mul]; linarith [fx.2]

example : (∀ v ∈ ([16777216, 1] : List ℚ), 0 ≤ v) ∧ sum32 [16777216, 1] = 16777216 := by decide +kernel

/-- **C96 (exact amounts).** Amounts that are multiples of a power of two, with at most `2^24` units per block, are summed
exactly. -/
theorem C96_amount_exact (zs : List Int) (k : Int) (hz : ∀ z ∈ zs, 0 ≤ z) (hs : zs.sum ≤ 2 ^ 24) :
    sum32 (zs.map (fun z : Int => (z : ℚ) * 2 ^ k)) = (zs.sum : ℚ) * 2 ^ k := by
  induction zs using List.reverseRecOn with
  | nil => simp [sum32]
  | append_singleton zs z ih =>
    have h0 : 0 ≤ z := hz z (by simp)
    have h1 : 0 ≤ zs.sum := List.sum_nonneg (fun x hx => hz x (by simp [hx]))
    simp only [List.map_append, List.sum_append, List.map_cons, List.map_nil, List.sum_singleton] at hs ⊢
    rw [sum32_snoc, ih (fun x hx => hz x (by simp [hx])) (by omega)]
    have e0 : f32 ((z : ℚ) * 2 ^ k) = (z : ℚ) * 2 ^ k :=
      rndBits_exact 24 (by norm_num) _ _ (by rw [abs_of_nonneg h0]; push_cast; omega)
    have e : (zs.sum : ℚ) * 2 ^ k + (z : ℚ) * 2 ^ k = ((zs.sum + z : Int) : ℚ) * 2 ^ k := by push_cast; ring
    rw [e0, e]
    exact rndBits_exact 24 (by norm_num) _ _ (by rw [abs_of_nonneg (by omega)]; push_cast; omega)

example : (∀ z ∈ ([3, 5] : List Int), 0 ≤ z) ∧ ([3, 5] : List Int).sum ≤ 2 ^ 24 ∧ sum32 [3 / 4, 5 / 4] = 2 := by decide +kernel

/-! ### Violations -/

theorem sum32_stall (n : Nat) : sum32 (16777216 :: List.replicate n 1) = 16777216 := by
  induction n with
  | zero => decide +kernel
  | succ n ih =>
    rw [List.replicate_succ', ← List.cons_append, sum32_snoc, ih]
    decide +kernel

/-- **C96 (lost amounts).** A fill of `2^24` units followed by any number of fills of one unit with the same timestamp, price and
side is merged to one trade of `2^24` units: the other fills are lost. -/
theorem C96_fills_lost (n : Nat) :
    mergeSplitTrades32 true (⟨0, 1, 16777216, false⟩ :: List.replicate n ⟨0, 1, 1, false⟩) = [⟨0, 1, 16777216, 1⟩] ∧
    ((⟨0, 1, 16777216, false⟩ :: List.replicate n ⟨0, 1, 1, false⟩ : List (RawTrade ℚ)).map (·.amount)).sum = 16777216 + n := by
  constructor
  · have hs : MTrade.start32 true ⟨0, 1, 16777216, false⟩ = ⟨0, 1, 16777216, 1⟩ := by decide +kernel
    simp only [mergeSplitTrades32]
    rw [hs]
    induction n with
    | zero => rfl
    | succ n ih =>
      rw [List.replicate_succ]
      unfold mergeLoop32
      have h1 : sameTrade64 true ⟨0, 1, 16777216, 1⟩ ⟨0, 1, 1, false⟩ = true := by decide +kernel
      have h2 : f32 (16777216 + f32 1) = 16777216 := by decide +kernel
      rw [if_pos h1]
      simp only [h2]
      exact ih
  · simp

/-- **C96 (small ticks).** With a tick of `1e-9` (below the tolerance `1e-8`) a buy ten ticks lower at the same time is merged into the
first price. -/
theorem C96_small_ticks :
    mergeSplitTrades32 true [⟨0, f64 (1 / 100000), 1, false⟩, ⟨0, f64 (10009 / 1000000000), 1, false⟩] =
      [⟨0, f64 (1 / 100000), 2, 1⟩] := by decide +kernel

/-- **C96 (small ticks).** With a tick of `1e-13` no side is inferred. -/
theorem C96_tiny_ticks : tradeSideVector64 [f64 (1 / 1000000), f64 (10000001 / 10000000000000), f64 (10000002 / 10000000000000)] =
    [0, 0, 0] := by decide +kernel

example : mergeSplitTrades32 true ([⟨0, 3, 1, false⟩, ⟨0, 3, 2, false⟩, ⟨0, 4, 1, false⟩, ⟨0, 4, 1, true⟩].map (onGrid (1 / 10))) =
    [⟨0, f64 (3 / 10), 3, 1⟩, ⟨0, f64 (4 / 10), 1, 1⟩, ⟨0, f64 (4 / 10), 1, -1⟩] := by decide +kernel

end FinML

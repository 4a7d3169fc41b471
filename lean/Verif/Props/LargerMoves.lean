/-
C163 (wider bars and larger moves).  `finmlkit/feature/core/volatility.py`.
-/
import Verif.Props.LatestUp

set_option linter.unusedSectionVars false

namespace FinML

variable {K : Type} [Field K] [LinearOrder K] [IsStrictOrderedRing K]

/-! ## Specification -/

/-- Missing in both, or numbers in this order. -/
def OptOrd : Option K → Option K → Prop
  | none, none => True
  | some x, some y => x ≤ y
  | _, _ => False

/-- Missing in both, or a number and one at least as far from zero. -/
def OptAbs : Option K → Option K → Prop
  | none, none => True
  | some x, some y => |x| ≤ |y|
  | _, _ => False

/-- Bars `(high, low)` of which the second set is nowhere narrower; missing prices are missing in both. -/
structure WiderBars (high low high' low' : List (Option K)) : Prop where
  lenH : high'.length = high.length
  lenL : low'.length = low.length
  up : ∀ j, OptOrd (high.getD j none) (high'.getD j none)
  down : ∀ j, OptOrd (low'.getD j none) (low.getD j none)
  proper : ∀ j h l, high.getD j none = some h → low.getD j none = some l → l ≤ h

/-! ## Lemmas -/

theorem trueRange_form (h l c : K) (hle : l ≤ h) : max (max (h - l) |h - c|) |l - c| = max h c - min l c := by
  rcases le_total h c with h1 | h1
  · rw [max_eq_right h1, min_eq_left (le_trans hle h1), abs_of_nonpos (by linarith : h - c ≤ 0), abs_of_nonpos (by linarith : l - c ≤ 0)]
    rw [max_eq_right (max_le (by linarith) (by linarith))]
    ring
  · rcases le_total l c with h2 | h2
    · rw [max_eq_left h1, min_eq_left h2, abs_of_nonneg (by linarith : 0 ≤ h - c), abs_of_nonpos (by linarith : l - c ≤ 0)]
      rw [max_eq_left (by linarith : h - c ≤ h - l), max_eq_left (by linarith)]
    · rw [max_eq_left h1, min_eq_right h2, abs_of_nonneg (by linarith : 0 ≤ h - c), abs_of_nonneg (by linarith : 0 ≤ l - c)]
      rw [max_eq_right (by linarith : h - l ≤ h - c), max_eq_left (by linarith)]

theorem trueRangeAt_wider (high low high' low' close : List (Option K)) (hw : WiderBars high low high' low') (i : Nat) :
    OptOrd (trueRangeAt high low close i) (trueRangeAt high' low' close i) := by
  have hu : ∀ j, OptOrd (high.getD j none) (high'.getD j none) := hw.up
  have hd : ∀ j, OptOrd (low'.getD j none) (low.getD j none) := hw.down
  have hp := hw.proper i
  have hu := hu i
  have hd := hd i
  unfold trueRangeAt
  by_cases h0 : i = 0
  · subst h0
    rw [if_pos rfl, if_pos rfl]
    generalize high.getD 0 none = a at *
    generalize high'.getD 0 none = a' at *
    generalize low.getD 0 none = b at *
    generalize low'.getD 0 none = b' at *
    rcases a with _ | x <;> rcases a' with _ | x' <;> rcases b with _ | y <;> rcases b' with _ | y' <;>
      first | exact absurd hu id | exact absurd hd id | trivial | skip
    have h1 : x ≤ x' := hu
    have h2 : y' ≤ y := hd
    show x - y ≤ x' - y'
    linarith
  · rw [if_neg h0, if_neg h0]
    generalize close.getD (i - 1) none = c
    generalize high.getD i none = a at *
    generalize high'.getD i none = a' at *
    generalize low.getD i none = b at *
    generalize low'.getD i none = b' at *
    rcases a with _ | x <;> rcases a' with _ | x' <;> rcases b with _ | y <;> rcases b' with _ | y' <;> rcases c with _ | z <;>
      first | exact absurd hu id | exact absurd hd id | trivial | skip
    have h1 : x ≤ x' := hu
    have h2 : y' ≤ y := hd
    have h3 : y ≤ x := hp x y rfl rfl
    show max (max (x - y) |x - z|) |y - z| ≤ max (max (x' - y') |x' - z|) |y' - z|
    rw [trueRange_form x y z h3, trueRange_form x' y' z (by linarith)]
    exact sub_le_sub (max_le_max h1 (le_refl _)) (min_le_min h2 (le_refl _))

/-- Two option lists in order have the same number of valid values, with ordered sums. -/
theorem validOf_ord (f g : K → K) (R : Option K → Option K → Prop)
    (hR : ∀ a b, R a b → (a = none ∧ b = none) ∨ ∃ x y, a = some x ∧ b = some y ∧ f x ≤ g y) :
    ∀ (l l' : List (Option K)), List.Forall₂ R l l' →
      (validOf l).length = (validOf l').length ∧ ((validOf l).map f).sum ≤ ((validOf l').map g).sum := by
  intro l l' h
  induction h with
  | nil => exact ⟨rfl, le_refl _⟩
  | cons hab _ ih =>
    obtain ⟨e1, e2⟩ := ih
    rcases hR _ _ hab with ⟨rfl, rfl⟩ | ⟨x, y, rfl, rfl, hxy⟩
    · exact ⟨e1, e2⟩
    · simp only [validOf, List.filterMap_cons, id, List.length_cons, List.map_cons, List.sum_cons] at *
      exact ⟨by rw [e1], add_le_add hxy e2⟩

theorem optOrd_cases (a b : Option K) (h : OptOrd a b) : (a = none ∧ b = none) ∨ ∃ x y, a = some x ∧ b = some y ∧ x ≤ y := by
  rcases a with _ | x <;> rcases b with _ | y
  · exact Or.inl ⟨rfl, rfl⟩
  · exact absurd h id
  · exact absurd h id
  · exact Or.inr ⟨x, y, rfl, rfl, h⟩

theorem optAbs_cases (a b : Option K) (h : OptAbs a b) : (a = none ∧ b = none) ∨ ∃ x y, a = some x ∧ b = some y ∧ x ^ 2 ≤ y ^ 2 := by
  rcases a with _ | x <;> rcases b with _ | y
  · exact Or.inl ⟨rfl, rfl⟩
  · exact absurd h id
  · exact absurd h id
  · exact Or.inr ⟨x, y, rfl, rfl, sq_le_sq.mpr h⟩

theorem validMean_ord (l l' : List (Option K)) (h : List.Forall₂ OptOrd l l') : OptOrd (validMean l) (validMean l') := by
  obtain ⟨e1, e2⟩ := validOf_ord (fun x => x) (fun x => x) OptOrd optOrd_cases l l' h
  simp only [List.map_id'] at e2
  unfold validMean
  dsimp only
  rw [e1]
  by_cases hc : (validOf l').length > 0
  · rw [if_pos hc, if_pos hc]
    exact div_le_div_of_nonneg_right e2 (by positivity)
  · rw [if_neg hc, if_neg hc]
    trivial

theorem atrEma_ord (tr tr' : List (Option K)) (w : Nat) (hw : 1 ≤ w) (h : List.Forall₂ OptOrd tr tr') (m : Nat) :
    OptOrd (atrEma tr w m) (atrEma tr' w m) := by
  have hw1 : (1 : K) ≤ (w : K) := by exact_mod_cast hw
  have hget : ∀ (l l' : List (Option K)), List.Forall₂ OptOrd l l' → ∀ j, OptOrd (l.getD j none) (l'.getD j none) := by
    intro l l' hf
    induction hf with
    | nil => intro j; trivial
    | cons hab _ ih =>
      intro j
      cases j with
      | zero => exact hab
      | succ j => exact ih j
  induction m with
  | zero =>
    rw [atrEma, atrEma]
    exact validMean_ord _ _ (List.forall₂_take w h)
  | succ m ih =>
    rw [atrEma, atrEma]
    have hj := hget tr tr' h (w + m)
    rcases optOrd_cases _ _ hj with ⟨e1, e2⟩ | ⟨x, y, e1, e2, e3⟩
    · rw [e1, e2]; trivial
    · rw [e1, e2]
      rcases optOrd_cases _ _ ih with ⟨i1, i2⟩ | ⟨a, b, i1, i2, i3⟩
      · rw [i1, i2]; trivial
      · rw [i1, i2]
        show (((w : K) - 1) * a + x) / (w : K) ≤ (((w : K) - 1) * b + y) / (w : K)
        exact div_le_div_of_nonneg_right (add_le_add (mul_le_mul_of_nonneg_left i3 (by linarith)) e3) (by linarith)

theorem forall₂_tabulate {β γ : Type} (R : β → γ → Prop) (n : Nat) (g : Nat → β) (g' : Nat → γ) (h : ∀ i, i < n → R (g i) (g' i)) :
    List.Forall₂ R (tabulate n g) (tabulate n g') := by
  unfold tabulate
  rw [List.forall₂_map_left_iff, List.forall₂_map_right_iff, List.forall₂_same]
  intro i hi
  exact h i (List.mem_range.mp hi)

theorem forall₂_window {β : Type} (R : β → β → Prop) (l l' : List β) (h : List.Forall₂ R l l') (w i : Nat) :
    List.Forall₂ R (window l w i) (window l' w i) := List.forall₂_take w (List.forall₂_drop (i + 1 - w) h)

/-! ## C163 -/

/-- **C163 (true range).** Bars that are nowhere narrower have true ranges that are nowhere smaller. -/
theorem C163_true_range (high low high' low' close tr tr' : List (Option K)) (hw : WiderBars high low high' low')
    (ht : trueRange high low close = .ok tr) (ht' : trueRange high' low' close = .ok tr') : List.Forall₂ OptOrd tr tr' := by
  unfold trueRange at ht ht'
  by_cases hl : high.length = low.length ∧ low.length = close.length
  · rw [if_pos hl] at ht
    rw [if_pos (by rw [hw.lenH, hw.lenL]; exact hl)] at ht'
    obtain rfl := Except.ok.inj ht
    obtain rfl := Except.ok.inj ht'
    rw [hw.lenH]
    exact forall₂_tabulate _ _ _ _ (fun i _ => trueRangeAt_wider high low high' low' close hw i)
  · rw [if_neg hl] at ht; cases ht

/-- **C163 (average true range).** Bars that are nowhere narrower have average true ranges, simple or smoothed, that are nowhere
smaller. -/
theorem C163_atr (high low high' low' close out out' : List (Option K)) (w : Nat) (h1 : 1 ≤ w) (ema : Bool)
    (hw : WiderBars high low high' low') (ho : atr high low close w ema false = .ok out)
    (ho' : atr high' low' close w ema false = .ok out') : List.Forall₂ OptOrd out out' := by
  unfold atr at ho ho'
  cases ht : trueRange high low close with
  | error e => rw [ht] at ho; cases ho
  | ok tr =>
    cases ht' : trueRange high' low' close with
    | error e => rw [ht'] at ho'; cases ho'
    | ok tr' =>
      rw [ht] at ho
      rw [ht'] at ho'
      obtain rfl := Except.ok.inj ho
      obtain rfl := Except.ok.inj ho'
      have hf := C163_true_range high low high' low' close tr tr' hw ht ht'
      rw [hw.lenH]
      apply forall₂_tabulate
      intro i _
      simp only [Bool.false_eq_true, if_false]
      by_cases hi : i + 1 < w
      · rw [if_pos hi, if_pos hi]; trivial
      rw [if_neg hi, if_neg hi]
      cases ema with
      | true =>
        rw [if_pos rfl, if_pos rfl]
        exact atrEma_ord tr tr' w h1 hf _
      | false =>
        rw [if_neg (by decide), if_neg (by decide)]
        unfold atrSma
        have e1 : (high'.getD i none).isNone = (high.getD i none).isNone := by
          rcases optOrd_cases _ _ (hw.up i) with ⟨a, b⟩ | ⟨x, y, a, b, -⟩ <;> rw [a, b] <;> rfl
        have e2 : (low'.getD i none).isNone = (low.getD i none).isNone := by
          rcases optOrd_cases _ _ (hw.down i) with ⟨a, b⟩ | ⟨x, y, a, b, -⟩ <;> rw [a, b] <;> rfl
        rw [e1, e2]
        by_cases hc : i = 2 ∧ (high.getD i none).isNone = true ∧ (low.getD i none).isNone = true ∧ (close.getD i none).isNone = true
        · rw [if_pos hc, if_pos hc]; trivial
        · rw [if_neg hc, if_neg hc]
          exact validMean_ord _ _ (forall₂_window _ _ _ hf w i)

example : WiderBars [some (3 : ℚ), none] [some 1, some 2] [some 4, none] [some 1, some 0] := by
  refine ⟨rfl, rfl, ?_, ?_, ?_⟩
  · intro j
    match j with
    | 0 => show (3 : ℚ) ≤ 4; norm_num
    | 1 => trivial
    | j + 2 => trivial
  · intro j
    match j with
    | 0 => show (1 : ℚ) ≤ 1; norm_num
    | 1 => show (0 : ℚ) ≤ 2; norm_num
    | j + 2 => trivial
  · intro j h l a b
    match j with
    | 0 =>
      cases a; cases b; norm_num
    | 1 => cases a
    | j + 2 => cases a

/-- **C163 (normalised average true range).** Divided by the mid price, the average true range can fall when a bar below the previous
close becomes wider upwards. -/
theorem C163_normalised_falls :
    atr [some 11, some (2 : ℚ)] [some 10, some 1] [some 10, some 1] 1 true true = .ok [some (2 / 21), some 6] ∧
    atr [some 11, some (3 : ℚ)] [some 10, some 1] [some 10, some 1] 1 true true = .ok [some (2 / 21), some (9 / 2)] := by decide +kernel

/-- **C163 (Parkinson).** A wider bar has a Parkinson range that is not smaller. -/
theorem C163_parkinson (log : K → K) (hlog : ∀ a b, 1 ≤ a → a ≤ b → log a ≤ log b) (h1 : log 1 = 0) (high low high' low' : List K)
    (hl : high'.length = high.length) (i : Nat) (hi : i < high.length) (hlo : 0 < low'.getD i 0) (hd : low'.getD i 0 ≤ low.getD i 0)
    (hp : low.getD i 0 ≤ high.getD i 0) (hu : high.getD i 0 ≤ high'.getD i 0) :
    (parkinson log high low).getD i 0 ≤ (parkinson log high' low').getD i 0 := by
  unfold parkinson
  rw [tabulate_getD _ _ _ _ hi, tabulate_getD _ _ _ _ (by omega)]
  have h2 : 0 ≤ log 2 := by
    have := hlog 1 2 (le_refl _) (by norm_num)
    linarith
  have hl0 : 0 < low.getD i 0 := lt_of_lt_of_le hlo hd
  have ha : 1 ≤ high.getD i 0 / low.getD i 0 := by rw [le_div_iff₀ hl0]; linarith
  have hab : high.getD i 0 / low.getD i 0 ≤ high'.getD i 0 / low'.getD i 0 :=
    div_le_div₀ (by linarith) hu hlo hd
  have hx : 0 ≤ log (high.getD i 0 / low.getD i 0) := by
    have := hlog 1 _ (le_refl _) ha
    linarith
  refine div_le_div_of_nonneg_right (pow_le_pow_left₀ hx (hlog _ _ ha hab) 2) (by linarith)

example : (parkinson (fun x : ℚ => x - 1) [3] [2]).getD 0 0 = 1 / 16 ∧ (parkinson (fun x : ℚ => x - 1) [4] [2]).getD 0 0 = 1 / 4 := by
  norm_num [parkinson, tabulate]

/-- **C163 (realised volatility).** Returns that are nowhere nearer to zero have a realised volatility that is nowhere smaller. -/
theorem C163_realized (sqrt : K → K) (hsq : ∀ a b, 0 ≤ a → a ≤ b → sqrt a ≤ sqrt b) (r r' : List (Option K)) (w : Nat) (isSample : Bool)
    (h : List.Forall₂ OptAbs r r') : List.Forall₂ OptOrd (realizedVol sqrt r w isSample) (realizedVol sqrt r' w isSample) := by
  unfold realizedVol rolling
  rw [← h.length_eq]
  apply forall₂_tabulate
  intro i _
  by_cases hi : i + 1 < w
  · rw [if_pos hi, if_pos hi]; trivial
  rw [if_neg hi, if_neg hi]
  obtain ⟨e1, e2⟩ := validOf_ord (fun x => x ^ 2) (fun x => x ^ 2) OptAbs optAbs_cases _ _ (forall₂_window _ _ _ h w i)
  unfold realizedWin
  dsimp only
  rw [← e1]
  by_cases hc : (validOf (window r w i)).length > 1
  · rw [if_pos hc, if_pos hc]
    have hn : (1 : K) ≤ ((validOf (window r w i)).length : K) := by exact_mod_cast hc.le
    have hden : (0 : K) ≤ if isSample = true then ((validOf (window r w i)).length : K) - 1 else ((validOf (window r w i)).length : K) := by
      split <;> linarith
    exact hsq _ _ (div_nonneg (sum_map_nonneg _ _ (fun x _ => sq_nonneg x)) hden) (div_le_div_of_nonneg_right e2 hden)
  · rw [if_neg hc, if_neg hc]; trivial

example : List.Forall₂ OptAbs [some (1 : ℚ), none, some (-2)] [some (-1), none, some 3] :=
  .cons (by show |(1 : ℚ)| ≤ |(-1 : ℚ)|; norm_num) (.cons trivial (.cons (by show |(-2 : ℚ)| ≤ |(3 : ℚ)|; norm_num) .nil))

/-- **C163 (zero-mean time-decayed deviation).** Likewise for the time-decayed deviation about zero, for decay factors between 0 and 1. -/
theorem C163_mean0 (sqrt : K → K) (hsq : ∀ a b, 0 ≤ a → a ≤ b → sqrt a ≤ sqrt b) (decay : Int → K)
    (hq : ∀ d, 0 ≤ decay d ∧ decay d ≤ 1) (floor : K) (ts : List Int) (y y' : List (Option K)) (hl : y'.length = y.length)
    (h : ∀ j, OptAbs (y.getD j none) (y'.getD j none)) :
    List.Forall₂ OptOrd (ewmstMean0 sqrt decay floor ts y) (ewmstMean0 sqrt decay floor ts y') := by
  have hs : ∀ i, 0 ≤ (ewmst0State decay ts y i).1 ∧ (ewmst0State decay ts y i).1 ≤ (ewmst0State decay ts y' i).1 ∧
      (ewmst0State decay ts y' i).2 = (ewmst0State decay ts y i).2 := by
    intro i
    induction i with
    | zero => exact ⟨le_refl _, le_refl _, rfl⟩
    | succ i ih =>
      obtain ⟨a, b, c⟩ := ih
      rw [ewmst0State, ewmst0State]
      have hd := hq (ts.getD (i + 1) 0 - ts.getD (i + 1 - 1) 0)
      unfold decayAt
      generalize decay (ts.getD (i + 1) 0 - ts.getD (i + 1 - 1) 0) = q at *
      rcases optAbs_cases _ _ (h (i + 1)) with ⟨e1, e2⟩ | ⟨x, x', e1, e2, e3⟩
      · rw [e1, e2]
        exact ⟨mul_nonneg hd.1 a, mul_le_mul_of_nonneg_left b hd.1, by dsimp only; rw [c]⟩
      · rw [e1, e2]
        dsimp only
        refine ⟨add_nonneg (mul_nonneg (by linarith) (mul_self_nonneg x)) (mul_nonneg hd.1 a), ?_, by rw [c]⟩
        refine add_le_add (mul_le_mul_of_nonneg_left ?_ (by linarith)) (mul_le_mul_of_nonneg_left b hd.1)
        rw [← pow_two, ← pow_two]; exact e3
  unfold ewmstMean0
  rw [hl]
  apply forall₂_tabulate
  intro i _
  by_cases h0 : i = 0
  · rw [if_pos h0, if_pos h0]; trivial
  rw [if_neg h0, if_neg h0]
  dsimp only
  obtain ⟨a, b, c⟩ := hs i
  rw [c]
  by_cases hp : (ewmst0State decay ts y i).2 > 0
  · rw [if_pos hp, if_pos hp]
    show floorStd sqrt floor _ ≤ floorStd sqrt floor _
    have h1 := div_nonneg a hp.le
    have h2 := div_le_div_of_nonneg_right b hp.le
    unfold floorStd
    dsimp only
    rw [if_neg (not_lt.mpr h1), if_neg (not_lt.mpr (le_trans h1 h2))]
    have h3 := hsq _ _ h1 h2
    split
    · split
      · exact le_refl _
      · rename_i hn; exact not_lt.mp hn
    · rename_i hn
      rw [if_neg (fun hc => hn (lt_of_le_of_lt h3 hc))]
      exact h3
  · rw [if_neg hp, if_neg hp]; trivial

example : ewmstMean0 (fun x => x) (fun _ => (1 / 2 : ℚ)) 0 [0, 1, 2] [none, some 1, some 2] = [none, some 1, some 3] ∧
    ewmstMean0 (fun x => x) (fun _ => (1 / 2 : ℚ)) 0 [0, 1, 2] [none, some (-1), some (-4)] = [none, some 1, some 11] := by decide +kernel

/-- **C163 (variance).** The rolling variance does not fall when the latest value moves further away from the mean of the other present
values of its window. -/
theorem C163_variance (pre : List (Option K)) (a b : K) (w ddof mp : Nat) (hw : 1 ≤ w)
    (hd : let l := (pre.drop (pre.length + 1 - w)).filterMap id
      |a - l.sum / (l.length : K)| ≤ |b - l.sum / (l.length : K)|) (x y : K)
    (hx : (rollingVariance (pre ++ [some a]) w ddof mp)[pre.length]? = some (some x))
    (hy : (rollingVariance (pre ++ [some b]) w ddof mp)[pre.length]? = some (some y)) : x ≤ y := by
  rw [C38_rolling_variance_exact _ w ddof mp _ (by simp)] at hx hy
  have hwin : ∀ c : K, w ≤ pre.length + 1 → (((pre ++ [some c]).drop (pre.length + 1 - w)).take w).filterMap id =
      (pre.drop (pre.length + 1 - w)).filterMap id ++ [c] := by
    intro c hc
    rw [List.drop_append_of_le_length (by omega), List.take_of_length_le (by simp; omega), List.filterMap_append]
    rfl
  dsimp only at hx hy hd
  by_cases hc : w ≤ pre.length + 1
  · rw [hwin a hc] at hx
    rw [hwin b hc] at hy
    generalize (pre.drop (pre.length + 1 - w)).filterMap id = l at *
    rw [List.length_append] at hx hy
    split at hx
    · rename_i hcond
      rw [if_pos (show w ≤ pre.length + 1 ∧ mp ≤ l.length + [b].length ∧ ddof < l.length + [b].length from hcond)] at hy
      simp only [Option.some.injEq] at hx hy
      subst hx hy
      unfold twoPassVar
      have hk : (0 : K) ≤ (((l ++ [a]).length : Nat) : K) - (ddof : K) := by
        have h1 : (ddof : K) ≤ ((l ++ [a]).length : K) := by
          rw [List.length_append]; exact_mod_cast hcond.2.2.le
        linarith
      have el : (l ++ [b]).length = (l ++ [a]).length := by simp
      rcases Nat.eq_zero_or_pos l.length with h0 | h0
      · obtain rfl : l = [] := List.length_eq_zero_iff.mp h0
        simp
      · rw [sq_dev_concat l a h0, sq_dev_concat l b h0, el]
        have hp : (0 : K) < (l.length : K) := by exact_mod_cast h0
        refine div_le_div_of_nonneg_right (add_le_add (le_refl _) (mul_le_mul_of_nonneg_left (sq_le_sq.mpr hd) (div_nonneg hp.le (by linarith)))) hk
    · simp at hx
  · rw [if_neg (fun h => hc h.1)] at hx
    simp at hx

example : (rollingVariance ([some 1, none, some 3] ++ [some (3 : ℚ)]) 4 1 1)[3]? = some (some (4 / 3)) ∧
    (rollingVariance ([some 1, none, some 3] ++ [some (0 : ℚ)]) 4 1 1)[3]? = some (some (7 / 3)) := by decide +kernel

end FinML

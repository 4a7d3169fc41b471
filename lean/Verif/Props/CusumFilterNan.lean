/-
C97: the CUSUM filter on series and thresholds with missing values.
-/
import Verif.Model.CusumFilterNan
import Verif.Props.CusumBars

set_option linter.unusedSectionVars false

namespace FinML

variable {K : Type} [Field K] [LinearOrder K] [IsStrictOrderedRing K]

/-- The events, none where the function raises (fewer than two prices). -/
def cusumEvents (log : K → K) (series threshold : List (Option K)) : List Nat :=
  (cusumFilterNan log series threshold).toOption.getD []

theorem cusumNanLoop_some (l : List (K × K)) (i : Nat) (p q : K) :
    cusumNanLoop i p q (l.map (fun x => (some x.1, some x.2))) = cusumFilterLoop i p q l := by
  induction l generalizing i p q with
  | nil => rfl
  | cons x l ih => simp only [List.map_cons, cusumNanLoop, cusumFilterLoop, sPosNan, sNegNan, ih]

/-- **C97.** Without missing values this is the filter of C31. -/
theorem C97_no_missing (log : K → K) (series threshold : List K) :
    cusumFilterNan log (series.map some) (threshold.map some) = cusumFilter log series threshold := by
  unfold cusumFilterNan cusumFilter
  simp only [List.length_map]
  split_ifs with h1 h2 h3
  · rfl
  · rfl
  · congr 1
    rw [← cusumNanLoop_some]
    congr 1
    apply List.ext_getElem?
    intro i
    obtain ⟨t, rfl⟩ := List.length_eq_one_iff.mp h3
    simp only [List.getElem?_map, List.zip, List.getElem?_zipWith, List.getElem?_tail, List.getElem?_replicate, List.map_cons,
      List.map_nil, List.getD_cons_zero]
    by_cases hi : i + 1 < series.length
    · have hr : i < series.length - 1 := by omega
      simp only [List.getElem?_eq_getElem hi, List.getElem?_eq_getElem (show i < series.length by omega), Option.map_some,
        List.getElem?_range' hr, if_pos hi, logRetNan]
      have e2 : 1 + 1 * i = i + 1 := by omega
      simp only [e2, Nat.add_sub_cancel, List.getD_eq_getElem?_getD, List.getElem?_eq_getElem hi,
        List.getElem?_eq_getElem (show i < series.length by omega), Option.getD_some, List.getElem?_replicate, if_pos hi]
    · have hn : series[i + 1]? = none := List.getElem?_eq_none (by omega)
      have hr : (List.range' 1 (series.length - 1))[i]? = none := List.getElem?_eq_none (by simp; omega)
      rw [hn, hr]
      simp
  · congr 1
    rw [← cusumNanLoop_some]
    congr 1
    apply List.ext_getElem?
    intro i
    have hl : threshold.length = series.length := by omega
    simp only [List.getElem?_map, List.zip, List.getElem?_zipWith, List.getElem?_tail]
    by_cases hi : i + 1 < series.length
    · have hr : i < series.length - 1 := by omega
      simp only [List.getElem?_eq_getElem hi, List.getElem?_eq_getElem (show i < series.length by omega), Option.map_some,
        List.getElem?_range' hr, logRetNan, List.getElem?_eq_getElem (show i + 1 < threshold.length by omega)]
      have e2 : 1 + 1 * i = i + 1 := by omega
      simp only [e2, Nat.add_sub_cancel, List.getD_eq_getElem?_getD, List.getElem?_eq_getElem hi,
        List.getElem?_eq_getElem (show i < series.length by omega), Option.getD_some,
        List.getElem?_eq_getElem (show i + 1 < threshold.length by omega)]
    · have hn : series[i + 1]? = none := List.getElem?_eq_none (by omega)
      have hr : (List.range' 1 (series.length - 1))[i]? = none := List.getElem?_eq_none (by simp; omega)
      rw [hn, hr]
      simp

theorem cusumNanLoop_shift (l : List (Option K × Option K)) (i k : Nat) (p q : K) :
    cusumNanLoop (i + k) p q l = (cusumNanLoop i p q l).map (· + k) := by
  induction l generalizing i p q with
  | nil => rfl
  | cons x l ih =>
    obtain ⟨r, t⟩ := x
    have e : i + k + 1 = (i + 1) + k := by omega
    cases t with
    | none => simp only [cusumNanLoop, e, ih]
    | some t =>
      simp only [cusumNanLoop, e, ih]
      split_ifs <;> simp

/-- A step whose return is missing clears both sums and fires nothing. -/
theorem cusumNanLoop_reset (l : List (Option K × Option K)) (t : Option K) (ht : ∀ x, t = some x → 0 ≤ x)
    (rest : List (Option K × Option K)) (i : Nat) (p q : K) :
    cusumNanLoop i p q (l ++ (none, t) :: rest) = cusumNanLoop i p q l ++ cusumNanLoop (i + l.length + 1) 0 0 rest := by
  induction l generalizing i p q with
  | nil =>
    cases t with
    | none => simp [cusumNanLoop, sPosNan, sNegNan]
    | some x =>
      have := ht x rfl
      have ep : sPosNan p none = 0 := rfl
      have en : sNegNan q none = 0 := rfl
      simp only [List.nil_append, cusumNanLoop, List.length_nil, add_zero]
      rw [if_neg (by rw [en]; linarith), if_neg (by rw [ep]; linarith), ep, en]
  | cons y l ih =>
    obtain ⟨r, s⟩ := y
    have e : i + (l.length + 1) + 1 = (i + 1) + l.length + 1 := by omega
    cases s with
    | none => simp only [List.cons_append, cusumNanLoop, ih, List.length_cons, e]
    | some s =>
      simp only [List.cons_append, cusumNanLoop, ih, List.length_cons, e]
      split_ifs <;> simp

/-- The steps of the loop. -/
def nanSteps (log : K → K) (series threshold : List (Option K)) : List (Option K × Option K) :=
  List.zip (List.zipWith (logRetNan log) series series.tail) threshold.tail

theorem cusumEvents_eq (log : K → K) (series threshold : List (Option K)) (h : threshold.length = series.length) :
    cusumEvents log series threshold = cusumNanLoop 1 0 0 (nanSteps log series threshold) := by
  unfold cusumEvents cusumFilterNan
  by_cases h1 : series.length ≤ 1
  · rw [if_pos h1]
    match series, h1 with
    | [], _ => rfl
    | [x], _ => rfl
  · rw [if_neg h1, if_neg (by omega), if_neg (by omega)]
    rfl

theorem nanSteps_cons_none (log : K → K) (b tb : List (Option K)) (t0 : Option K) (h : tb.length = b.length) :
    nanSteps log (none :: b) (t0 :: tb) = match tb with | [] => [] | t1 :: _ => (none, t1) :: nanSteps log b tb := by
  match b, tb, h with
  | [], [], _ => rfl
  | x :: b, t1 :: tb, _ => rfl

theorem nanSteps_append (log : K → K) (a ta b tb : List (Option K)) (t0 : Option K) (ha : ta.length = a.length) (hne : a ≠ []) :
    nanSteps log (a ++ none :: b) (ta ++ t0 :: tb) = nanSteps log a ta ++ (none, t0) :: nanSteps log (none :: b) (t0 :: tb) := by
  induction a generalizing ta with
  | nil => exact absurd rfl hne
  | cons x a ih =>
    obtain ⟨tx, ta, rfl⟩ : ∃ u v, ta = u :: v := by cases ta with | nil => simp at ha | cons u v => exact ⟨u, v, rfl⟩
    cases a with
    | nil =>
      have : ta = [] := by simpa using ha
      subst this
      cases x <;> rfl
    | cons y a =>
      obtain ⟨ty, ta, rfl⟩ : ∃ u v, ta = u :: v := by cases ta with | nil => simp at ha | cons u v => exact ⟨u, v, rfl⟩
      have := ih (ty :: ta) (by simpa using ha) (by simp)
      have e1 : nanSteps log (x :: y :: a ++ none :: b) (tx :: ty :: ta ++ t0 :: tb) =
          (logRetNan log x y, ty) :: nanSteps log (y :: a ++ none :: b) (ty :: ta ++ t0 :: tb) := rfl
      have e2 : nanSteps log (x :: y :: a) (tx :: ty :: ta) = (logRetNan log x y, ty) :: nanSteps log (y :: a) (ty :: ta) := rfl
      rw [e1, e2, this]
      rfl

theorem nanSteps_length (log : K → K) (a ta : List (Option K)) (h : ta.length = a.length) : (nanSteps log a ta).length = a.length - 1 := by
  simp [nanSteps, h]

/-- **C97.** A missing price cuts the series in two: the events are those of the part before it and, shifted, those of the part
after it, each filtered on its own from empty sums. -/
theorem C97_missing_price_splits (log : K → K) (a b ta tb : List (Option K)) (t0 : Option K) (ha : ta.length = a.length)
    (hb : tb.length = b.length) (ht : ∀ x, some x ∈ ta ++ t0 :: tb → 0 ≤ x) :
    cusumEvents log (a ++ none :: b) (ta ++ t0 :: tb) =
      cusumEvents log a ta ++ (cusumEvents log b tb).map (· + (a.length + 1)) := by
  rw [cusumEvents_eq _ _ _ (by simp [ha, hb]), cusumEvents_eq _ _ _ ha, cusumEvents_eq _ _ _ hb, ← cusumNanLoop_shift]
  have tail : ∀ k, cusumNanLoop (k + 1) 0 0 (nanSteps log (none :: b) (t0 :: tb)) = cusumNanLoop (k + 2) 0 0 (nanSteps log b tb) := by
    intro k
    rw [nanSteps_cons_none log b tb t0 hb]
    cases tb with
    | nil =>
      have : b = [] := by simpa using hb.symm
      subst this
      rfl
    | cons t1 tb =>
      have := cusumNanLoop_reset [] t1 (fun x hx => ht x (by simp [hx])) (nanSteps log b (t1 :: tb)) (k + 1) 0 0
      simpa [cusumNanLoop] using this
  by_cases hne : a = []
  · subst hne
    have : ta = [] := by simpa using ha
    subst this
    have := tail 0
    simpa [nanSteps, cusumNanLoop] using this
  · rw [nanSteps_append log a ta b tb t0 ha hne, cusumNanLoop_reset _ t0 (fun x hx => ht x (by simp [hx])), nanSteps_length log a ta ha]
    congr 1
    have hp : 0 < a.length := List.length_pos_iff.mpr hne
    have e : 1 + (a.length - 1) + 1 = a.length + 1 := by omega
    rw [e, tail]
    congr 1
    omega

example : cusumEvents (fun x : ℚ => x - 1) [some 1, some 2, none, some 3, some 9, some 9] (List.replicate 6 (some (1/2))) = [1, 4] ∧
    cusumEvents (fun x : ℚ => x - 1) [some 1, some 2] [some (1/2), some (1/2)] = [1] ∧
    cusumEvents (fun x : ℚ => x - 1) [some 3, some 9, some 9] (List.replicate 3 (some (1/2))) = [1] := by decide +kernel

theorem cusumNanLoop_mem (l : List (Option K × Option K)) (i : Nat) (p q : K) :
    ∀ x ∈ cusumNanLoop i p q l, i ≤ x ∧ x < i + l.length := by
  induction l generalizing i p q with
  | nil => intro x hx; simp [cusumNanLoop] at hx
  | cons y l ih =>
    intro x hx
    obtain ⟨r, t⟩ := y
    have go : ∀ p q, x ∈ cusumNanLoop (i + 1) p q l → i ≤ x ∧ x < i + ((r, t) :: l).length := by
      intro p q h
      have := ih _ _ _ x h
      simp only [List.length_cons]
      omega
    have self : x = i → i ≤ x ∧ x < i + ((r, t) :: l).length := by
      rintro rfl
      simp
    cases t with
    | none => exact go _ _ hx
    | some t =>
      simp only [cusumNanLoop] at hx
      split_ifs at hx
      · rcases List.mem_cons.mp hx with h | h
        · exact self h
        · exact go _ _ h
      · rcases List.mem_cons.mp hx with h | h
        · exact self h
        · exact go _ _ h
      · exact go _ _ hx

/-- A bar whose price is missing, and the bar after it, are never events. -/
theorem C97_none_at_gap (log : K → K) (a b ta tb : List (Option K)) (t0 : Option K) (ha : ta.length = a.length)
    (hb : tb.length = b.length) (ht : ∀ x, some x ∈ ta ++ t0 :: tb → 0 ≤ x) :
    a.length ∉ cusumEvents log (a ++ none :: b) (ta ++ t0 :: tb) ∧ a.length + 1 ∉ cusumEvents log (a ++ none :: b) (ta ++ t0 :: tb) := by
  rw [C97_missing_price_splits log a b ta tb t0 ha hb ht, cusumEvents_eq _ _ _ ha, cusumEvents_eq _ _ _ hb]
  have hA : ∀ x ∈ cusumNanLoop 1 0 0 (nanSteps log a ta), x < max 1 a.length := by
    intro x hx
    have := cusumNanLoop_mem _ _ _ _ x hx
    rw [nanSteps_length log a ta ha] at this
    omega
  have hA' : ∀ x ∈ cusumNanLoop 1 0 0 (nanSteps log a ta), 1 ≤ x := fun x hx => (cusumNanLoop_mem _ _ _ _ x hx).1
  have hB : ∀ x ∈ (cusumNanLoop 1 0 0 (nanSteps log b tb)).map (· + (a.length + 1)), a.length + 2 ≤ x := by
    intro x hx
    obtain ⟨y, hy, rfl⟩ := List.mem_map.mp hx
    have := cusumNanLoop_mem _ _ _ _ y hy
    omega
  constructor <;>
  · intro h
    rcases List.mem_append.mp h with h | h
    · have h1 := hA _ h
      have h2 := hA' _ h
      omega
    · have := hB _ h
      omega

example : cusumEvents id [some 1, some 4, none, some 1, some (4 : ℚ)] [some 1, some 1, some 1, some 1, some 1] = [1, 4] := by decide +kernel

/-- While no threshold is available, the sums are those of the plain CUSUM of all returns so far. -/
theorem cusumNanLoop_warmup (rs pre : List K) (rest : List (Option K × Option K)) (i : Nat) :
    cusumNanLoop i (maxSuffix pre) (minSuffix pre) (rs.map (fun r => (some r, none)) ++ rest) =
      cusumNanLoop (i + rs.length) (maxSuffix (pre ++ rs)) (minSuffix (pre ++ rs)) rest := by
  induction rs generalizing pre i with
  | nil => simp
  | cons r rs ih =>
    simp only [List.map_cons, List.cons_append, cusumNanLoop, sPosNan, sNegNan]
    rw [← maxSuffix_concat, ← minSuffix_concat, ih]
    simp only [List.append_assoc, List.singleton_append, List.length_cons]
    congr 1
    omega

theorem lt_maxSuffix_iff (l : List K) (t : K) (ht : 0 ≤ t) : t < maxSuffix l ↔ ∃ k < l.length, t < (l.drop k).sum := by
  induction l with
  | nil => simp [maxSuffix_nil, ht]
  | cons a l ih =>
    rw [maxSuffix_cons, lt_max_iff, ih]
    constructor
    · rintro (h | ⟨k, hk, h⟩)
      · exact ⟨0, by simp, by simpa using h⟩
      · exact ⟨k + 1, by simpa using hk, by simpa using h⟩
    · rintro ⟨k, hk, h⟩
      cases k with
      | zero => left; simpa using h
      | succ k => right; exact ⟨k, by simpa using hk, by simpa using h⟩

theorem minSuffix_lt_iff (l : List K) (t : K) (ht : 0 ≤ t) : minSuffix l < -t ↔ ∃ k < l.length, (l.drop k).sum < -t := by
  induction l with
  | nil => simp [minSuffix_nil, ht]
  | cons a l ih =>
    rw [minSuffix_cons, min_lt_iff, ih]
    constructor
    · rintro (h | ⟨k, hk, h⟩)
      · exact ⟨0, by simp, by simpa using h⟩
      · exact ⟨k + 1, by simpa using hk, by simpa using h⟩
    · rintro ⟨k, hk, h⟩
      cases k with
      | zero => left; simpa using h
      | succ k => right; exact ⟨k, by simpa using hk, by simpa using h⟩

/-- The returns of a list of prices. -/
def logRets (log : K → K) (prices : List K) : List K := List.zipWith (fun p c => log (c / p)) prices prices.tail

theorem nanSteps_warmup (log : K → K) (more : List K) (t : K) (ts : List (Option K)) (j : Nat) :
    ∀ (prices : List K) (u : Option K), prices.length = j + 2 →
    ∃ rs r rest, logRets log prices = rs ++ [r] ∧ rs.length = j ∧
      nanSteps log ((prices ++ more).map some) (u :: (List.replicate j none ++ some t :: ts)) =
        rs.map (fun r => (some r, none)) ++ (some r, some t) :: rest := by
  induction j with
  | zero =>
    intro prices u hp
    match prices, hp with
    | [x, y], _ => exact ⟨[], log (y / x), _, rfl, rfl, rfl⟩
  | succ j ih =>
    intro prices u hp
    match prices, hp with
    | x :: y :: l, hp =>
      obtain ⟨rs, r, rest, h1, h2, h3⟩ := ih (y :: l) none (by simpa using hp)
      refine ⟨log (y / x) :: rs, r, rest, ?_, by simp [h2], ?_⟩
      · have : logRets log (x :: y :: l) = log (y / x) :: logRets log (y :: l) := rfl
        rw [this, h1]
        rfl
      · have : nanSteps log ((x :: y :: l ++ more).map some) (u :: (List.replicate (j + 1) none ++ some t :: ts)) =
            (some (log (y / x)), none) :: nanSteps log ((y :: l ++ more).map some) (none :: (List.replicate j none ++ some t :: ts)) := rfl
        rw [this, h3]
        rfl

/-- **C97.** With no threshold on the first `j` bars (a rolling volatility that is not yet defined) no event is reported before bar `j`,
but the sums run on: bar `j` is an event exactly when the returns of some stretch of bars ending there, possibly the whole
history, add up to more than its threshold in size. -/
theorem C97_missing_thresholds (log : K → K) (prices more : List K) (j : Nat) (hj : 1 ≤ j) (hp : prices.length = j + 1) (t : K)
    (ht : 0 ≤ t) (ts : List (Option K)) (hts : ts.length = more.length) :
    (∀ i ∈ cusumEvents log ((prices ++ more).map some) (List.replicate j none ++ some t :: ts), j ≤ i) ∧
    (j ∈ cusumEvents log ((prices ++ more).map some) (List.replicate j none ++ some t :: ts) ↔
      ∃ k < j, t < |((logRets log prices).drop k).sum|) := by
  obtain ⟨j, rfl⟩ : ∃ m, j = m + 1 := ⟨j - 1, by omega⟩
  obtain ⟨rs, r, rest, h1, h2, h3⟩ := nanSteps_warmup log more t ts j prices none hp
  have hl : (logRets log prices).length = j + 1 := by simp [h1, h2]
  rw [cusumEvents_eq _ _ _ (by simp [hp, hts]; omega)]
  have e : (List.replicate (j + 1) none ++ some t :: ts : List (Option K)) = none :: (List.replicate j none ++ some t :: ts) := rfl
  have h0 := cusumNanLoop_warmup rs [] ((some r, some t) :: rest) 1
  rw [maxSuffix_nil, minSuffix_nil, List.nil_append] at h0
  rw [e, h3, h0, h2]
  constructor
  · intro i hi
    have := cusumNanLoop_mem _ _ _ _ i hi
    omega
  · have later : ∀ p q : K, j + 1 ∉ cusumNanLoop (1 + j + 1) p q rest := by
      intro p q h
      have := cusumNanLoop_mem _ _ _ _ _ h
      omega
    have hiff : (∃ k < j + 1, t < |((logRets log prices).drop k).sum|) ↔
        minSuffix (logRets log prices) < -t ∨ t < maxSuffix (logRets log prices) := by
      rw [lt_maxSuffix_iff _ t ht, minSuffix_lt_iff _ t ht, hl]
      constructor
      · rintro ⟨k, hk, h⟩
        rcases lt_abs.mp h with h | h
        · exact Or.inr ⟨k, hk, h⟩
        · exact Or.inl ⟨k, hk, by linarith⟩
      · rintro (⟨k, hk, h⟩ | ⟨k, hk, h⟩)
        · exact ⟨k, hk, lt_abs.mpr (Or.inr (by linarith))⟩
        · exact ⟨k, hk, lt_abs.mpr (Or.inl h)⟩
    rw [hiff, h1, maxSuffix_concat, minSuffix_concat]
    have ep : sPosNan (maxSuffix rs) (some r) = max 0 (maxSuffix rs + r) := rfl
    have en : sNegNan (minSuffix rs) (some r) = min 0 (minSuffix rs + r) := rfl
    rw [← ep, ← en]
    simp only [cusumNanLoop]
    have e1 : 1 + j = j + 1 := by omega
    by_cases c1 : sNegNan (minSuffix rs) (some r) < -t
    · rw [if_pos c1]
      simp [c1, e1]
    · rw [if_neg c1]
      by_cases c2 : sPosNan (maxSuffix rs) (some r) > t
      · rw [if_pos c2]
        simp [c2, e1]
      · rw [if_neg c2]
        constructor
        · intro h
          exact absurd h (later _ _)
        · rintro (h | h)
          · exact absurd h c1
          · exact absurd h c2

example : cusumEvents (fun x : ℚ => x - 1) [some 1, some 2, some 3, some 4] [none, none, none, some 1] = [3] ∧
    cusumEvents (fun x : ℚ => x - 1) [some 3, some 4] [none, some 1] = [] := by decide +kernel

/-- A single missing threshold value given for all bars: no event at all. -/
theorem C97_no_threshold (log : K → K) (series : List (Option K)) : cusumEvents log series [none] = [] := by
  have h : ∀ (l : List (Option K × Option K)) (i : Nat) (p q : K), (∀ x ∈ l, x.2 = none) → cusumNanLoop i p q l = [] := by
    intro l
    induction l with
    | nil => intros; rfl
    | cons x l ih =>
      intro i p q hx
      obtain ⟨r, t⟩ := x
      have : t = none := hx (r, t) (by simp)
      subst this
      simp only [cusumNanLoop]
      exact ih _ _ _ (fun y hy => hx y (by simp [hy]))
  unfold cusumEvents cusumFilterNan
  by_cases h1 : series.length ≤ 1
  · rw [if_pos h1]
    rfl
  · rw [if_neg h1, if_neg (by simp), if_pos (by simp)]
    show cusumNanLoop 1 0 0 _ = []
    apply h
    intro x hx
    have := List.of_mem_zip (a := x.1) (b := x.2) hx
    have := List.mem_of_mem_tail this.2
    simpa using (List.mem_replicate.mp this).2

end FinML

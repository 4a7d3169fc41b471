/-
C157: array accesses and uninitialised entries of the compiled feature kernels.
-/
import Mathlib.Data.List.GetD
import Verif.Model.CheckedFeatures
import Verif.Props.CheckedIndexers

set_option linter.unusedSectionVars false

namespace FinML

variable {K : Type} [Field K] [LinearOrder K] [IsStrictOrderedRing K]

/-! ## Output arrays filled from the left -/

/-- An output array of `n` entries whose first `i` entries hold `g 0, …, g (i-1)` and whose other entries hold `d` (`none`: never written). -/
def filled {α : Type} (d : Option α) (n i : Nat) (g : Nat → α) : List (Option α) := tabulate n (fun j => if j < i then some (g j) else d)

theorem length_filled {α : Type} (d : Option α) (n i : Nat) (g : Nat → α) : (filled d n i g).length = n := by simp [filled, tabulate]

theorem filled_getElem? {α : Type} (d : Option α) (n i j : Nat) (g : Nat → α) (hj : j < n) : (filled d n i g)[j]? = some (if j < i then some (g j) else d) := by
  simp [filled, tabulate, hj]

theorem filled_ext {α : Type} (d : Option α) (n i : Nat) (g : Nat → α) (l : List (Option α)) (hl : l.length = n)
    (h : ∀ j, j < n → l[j]? = some (if j < i then some (g j) else d)) : l = filled d n i g := by
  apply List.ext_getElem?
  intro j
  by_cases hj : j < n
  · rw [h j hj, filled_getElem? d n i j g hj]
  · rw [List.getElem?_eq_none (by omega), List.getElem?_eq_none (by rw [length_filled]; omega)]

theorem filled_zero {α : Type} (d : Option α) (n : Nat) (g : Nat → α) : List.replicate n d = filled d n 0 g :=
  filled_ext d n 0 g _ (by simp) (fun j hj => by simp [hj])

theorem filled_all {α : Type} (d : Option α) (n i : Nat) (hi : n ≤ i) (g : Nat → α) : filled d n i g = (tabulate n g).map some := by
  symm
  apply filled_ext _ _ _ _ _ (by simp [tabulate])
  intro j hj
  simp [tabulate, hj, show j < i by omega]

theorem filled_prefix {α : Type} (n k : Nat) (v : α) (g : Nat → α) (hg : ∀ j, j < k → g j = v) :
    fillPrefix k v (List.replicate n none) = filled none n k g := by
  unfold fillPrefix
  apply filled_ext
  · simp; omega
  · intro j hj
    by_cases h : j < k
    · rw [List.getElem?_append_left (by simp; omega)]
      simp [h, hj, hg j h]
    · rw [List.getElem?_append_right (by simp; omega)]
      simp only [List.length_map, List.length_take, List.length_replicate, List.getElem?_drop, h, if_false]
      rw [List.getElem?_replicate, if_pos (by omega)]

theorem wr_nat {α : Type} (xs : List α) (i : Nat) (v : α) (hi : i < xs.length) : wr xs (i : Int) v = some (xs.set i v) := by
  unfold wr
  rw [if_pos ⟨by omega, by omega⟩, Int.toNat_natCast]

/-- Writing the next entry. -/
theorem wr_filled {α : Type} (d : Option α) (n i : Nat) (g : Nat → α) (hi : i < n) : wr (filled d n i g) (i : Int) (some (g i)) = some (filled d n (i + 1) g) := by
  rw [wr_nat _ _ _ (by rw [length_filled]; omega)]
  congr 1
  apply filled_ext
  · simp [length_filled]
  · intro j hj
    rw [List.getElem?_set]
    by_cases h : i = j
    · subst h; simp [length_filled, hi]
    · rw [if_neg h, filled_getElem? _ _ _ _ _ hj]
      by_cases h' : j < i
      · simp [h', show j < i + 1 by omega]
      · simp [h', show ¬ j < i + 1 by omega]

/-- Overwriting an entry that was written before. -/
theorem wr_filled_over {α : Type} (d : Option α) (n i k : Nat) (g g' : Nat → α) (hk : k < i) (hn : k < n) (hg : ∀ j, j < i → j ≠ k → g j = g' j) :
    wr (filled d n i g) (k : Int) (some (g' k)) = some (filled d n i g') := by
  rw [wr_nat _ _ _ (by rw [length_filled]; omega)]
  congr 1
  apply filled_ext
  · simp [length_filled]
  · intro j hj
    rw [List.getElem?_set]
    by_cases h : k = j
    · subst h; simp [length_filled, hn, hk]
    · rw [if_neg h, filled_getElem? _ _ _ _ _ hj]
      by_cases h' : j < i
      · simp [h', hg j h' (Ne.symm h)]
      · simp [h']

theorem rd_filled {α : Type} (d : Option α) (n i j : Nat) (g : Nat → α) (hj : j < i) (hn : j < n) : rd (filled d n i g) (j : Int) = some (some (g j)) := by
  rw [rd_nat, filled_getElem? _ _ _ _ _ hn, if_pos hj]

/-- The loop fills the entries from `a` to `a + k - 1` when every iteration finds its data. -/
theorem fillLoop_filled {σ α : Type} (step : List (Option α) → Nat → σ → Option (α × σ)) (d : Option α) (n : Nat) (g : Nat → α) (st : Nat → σ) (k a : Nat)
    (hn : a + k ≤ n) (h : ∀ i, a ≤ i → i < a + k → step (filled d n i g) i (st i) = some (g i, st (i + 1))) :
    fillLoop step (List.range' a k) (st a) (filled d n a g) = some (filled d n (a + k) g) := by
  induction k generalizing a with
  | zero => simp [fillLoop]
  | succ k ih =>
    rw [List.range'_succ]
    simp only [fillLoop, h a (by omega) (by omega), wr_filled d n a g (by omega)]
    rw [ih (a + 1) (by omega) (fun i h1 h2 => h i (by omega) (by omega))]
    congr 2; omega

/-- One iteration without its data ends the run. -/
theorem fillLoop_none {σ α : Type} (step : List (Option α) → Nat → σ → Option (α × σ)) (is : List Nat) (s : σ) (out : List (Option α))
    (i : Nat) (hi : i ∈ is) (h : ∀ o s, step o i s = none) : fillLoop step is s out = none := by
  induction is generalizing s out with
  | nil => simp at hi
  | cons j is ih =>
    simp only [fillLoop]
    by_cases hj : i = j
    · subst hj; rw [h]
    · have hi' : i ∈ is := by
        rcases List.mem_cons.mp hi with h1 | h1
        · exact absurd h1 hj
        · exact h1
      cases step out j s with
      | none => rfl
      | some r =>
        dsimp only
        cases wr out (j : Int) (some r.1) with
        | none => rfl
        | some o => exact ih r.2 o hi'

theorem sumLoop_eq (term : Nat → Option K) (f : Nat → K) (is : List Nat) (h : ∀ k ∈ is, term k = some (f k)) :
    sumLoop term is = some (is.map f).sum := by
  unfold sumLoop
  have gen : ∀ s : K, is.foldlM (fun s k => (term k).map (fun x => s + x)) s = some (s + (is.map f).sum) := by
    induction is with
    | nil => intro s; simp
    | cons k is ih =>
      intro s
      rw [List.foldlM_cons, h k (by simp)]
      simp only [Option.map_some, Option.bind_eq_bind, Option.bind_some]
      rw [ih (fun j hj => h j (by simp [hj]))]
      simp [add_assoc]
  rw [gen 0, zero_add]

theorem sumLoop_none (term : Nat → Option K) (is : List Nat) (k : Nat) (hk : k ∈ is) (h : term k = none) : sumLoop term is = none := by
  unfold sumLoop
  have gen : ∀ s : K, is.foldlM (fun s k => (term k).map (fun x => s + x)) s = none := by
    induction is with
    | nil => simp at hk
    | cons j is ih =>
      intro s
      rw [List.foldlM_cons]
      by_cases hj : k = j
      · subst hj; rw [h]; rfl
      · have hk' : k ∈ is := by
          rcases List.mem_cons.mp hk with h1 | h1
          · exact absurd h1 hj
          · exact h1
        cases term j with
        | none => rfl
        | some x => simp only [Option.map_some, Option.bind_eq_bind, Option.bind_some]; exact ih hk' _
  exact gen 0

theorem rd_getD {α : Type} (xs : List α) (d : α) (i : Nat) (hi : i < xs.length) : rd xs (i : Int) = some (xs.getD i d) := by
  rw [rd_nat, List.getElem?_eq_getElem hi, List.getD_eq_getElem _ _ hi]

theorem rd_sub_getD {α : Type} (xs : List α) (d : α) (i k : Nat) (hk : k ≤ i) (hi : i - k < xs.length) :
    rd xs ((i : Int) - (k : Int)) = some (xs.getD (i - k) d) := by
  rw [show (i : Int) - (k : Int) = ((i - k : Nat) : Int) by omega, rd_getD xs d _ hi]

theorem rd_pred_getD {α : Type} (xs : List α) (d : α) (i : Nat) (hk : 1 ≤ i) (hi : i - 1 < xs.length) :
    rd xs ((i : Int) - 1) = some (xs.getD (i - 1) d) := rd_sub_getD xs d i 1 hk hi

/-- Positions behind the end cannot be read. -/
theorem rd_beyond {α : Type} (xs : List α) (i : Nat) (hi : xs.length ≤ i) : rd xs (i : Int) = none := rd_none xs (Or.inr (by omega))

/-! ## Means and ranges -/

/-- **C157 (`ewma`).** The mean of a non-empty series stays inside the arrays and writes every entry; the mean of an empty series reads
and writes outside. -/
theorem C157_ewma (y : List K) (span : Nat) (hs : 1 ≤ span) :
    (y ≠ [] → ∃ out, ewma y span = .ok out ∧ ewmaChk y span = some (.ok (out.map some))) ∧ (y = [] → ewmaChk y span = none) := by
  constructor
  · intro hy
    have hl : 0 < y.length := List.length_pos_iff.mpr hy
    refine ⟨_, by unfold ewma; rw [if_neg (by omega)], ?_⟩
    unfold ewmaChk
    rw [if_neg (by omega)]
    set q : K := 1 - 2 / ((span : K) + 1) with hq
    set g : Nat → K := fun t => (ewmaState y q t).1 / (ewmaState y q t).2 with hg
    have h0 : rd y 0 = some (y.getD 0 0) := rd_getD y 0 0 hl
    have hw : wr (List.replicate y.length none) 0 (some (y.getD 0 0 / 1)) = some (filled none y.length 1 g) := by
      rw [filled_zero _ _ g]
      exact wr_filled none y.length 0 g hl
    have hf := fillLoop_filled (ewmaStepChk y q) none y.length g (fun i => ewmaState y q (i - 1)) (y.length - 1) 1 (by omega) (by
      intro i h1 h2
      unfold ewmaStepChk
      rw [rd_getD y 0 i (by omega)]
      obtain ⟨j, rfl⟩ : ∃ j, i = j + 1 := ⟨i - 1, by omega⟩
      simp [hg, ewmaState])
    simp only [h0, Option.bind_eq_bind, Option.bind_some, hw]
    have e : ewmaState y q (1 - 1) = (y.getD 0 0, (1 : K)) := rfl
    rw [e] at hf
    rw [hf]
    simp only [Option.bind_some]
    rw [filled_all _ _ _ (by omega)]
  · rintro rfl
    unfold ewmaChk
    rw [if_neg (by omega)]
    rfl

/-- **C157 (`true_range`).** For columns of one length the true range stays inside the arrays and writes every entry exactly when there
is a bar. -/
theorem C157_true_range (high low close : List (Option K)) (h1 : high.length = low.length) (h2 : low.length = close.length) :
    (high ≠ [] → ∃ out, trueRange high low close = .ok out ∧ trueRangeChk high low close = some (.ok (out.map some))) ∧
    (high = [] → trueRangeChk high low close = none) := by
  constructor
  · intro hy
    have hl : 0 < high.length := List.length_pos_iff.mpr hy
    refine ⟨_, by unfold trueRange; rw [if_pos ⟨h1, h2⟩], ?_⟩
    unfold trueRangeChk
    rw [if_pos ⟨h1, h2⟩]
    have hh : rd high 0 = some (high.getD 0 none) := rd_getD high none 0 hl
    have hlw : rd low 0 = some (low.getD 0 none) := rd_getD low none 0 (by omega)
    set g := trueRangeAt high low close with hg
    have hw : wr (List.replicate high.length none) 0 (some (g 0)) = some (filled none high.length 1 g) := by
      rw [filled_zero _ _ g]
      exact wr_filled none high.length 0 g hl
    have hf := fillLoop_filled (trueRangeStepChk high low close) none high.length g (fun _ => ()) (high.length - 1) 1 (by omega) (by
      intro i h3 h4
      unfold trueRangeStepChk
      rw [rd_getD high none i (by omega), rd_getD low none i (by omega), rd_pred_getD close none i h3 (by omega)]
      simp only [Option.bind_eq_bind, Option.bind_some, hg, trueRangeAt, show i ≠ 0 by omega, if_false]
      rfl)
    simp only [hh, hlw, Option.bind_eq_bind, Option.bind_some]
    have e : g 0 = firstRange (high.getD 0 none) (low.getD 0 none) := by
      simp only [hg, trueRangeAt, if_true]
      cases high.getD 0 none <;> cases low.getD 0 none <;> rfl
    rw [e] at hw
    rw [hw]
    simp only [Option.bind_some, hf]
    rw [filled_all _ _ _ (by omega)]
  · rintro rfl
    unfold trueRangeChk
    rw [if_pos ⟨h1, h2⟩]
    rfl

example : ewmaChk [(1 : ℚ), 3] 1 = some (.ok [some 1, some 3]) ∧ ewmaChk ([] : List ℚ) 1 = none := by decide +kernel

example : trueRangeChk [some (5 : ℚ), some 7] [some 4, none] [some 5, some 6] = some (.ok [some (some 1), some none]) ∧
    trueRangeChk ([] : List (Option ℚ)) [] [] = none := by decide +kernel

/-- **C157 (`parkinson_range`).** The range stays inside the arrays and writes every entry exactly when there is a low for every high. -/
theorem C157_parkinson (log : K → K) (high low : List K) :
    (high.length ≤ low.length → parkinsonChk log high low = some ((parkinson log high low).map some)) ∧
    (low.length < high.length → parkinsonChk log high low = none) := by
  constructor
  · intro h
    unfold parkinsonChk parkinson
    have hf := fillLoop_filled (parkinsonStepChk log high low) none high.length (fun i => log (high.getD i 0 / low.getD i 0) ^ 2 / (log 2 * 4))
      (fun _ => ()) high.length 0 (by omega) (by
        intro i _ h4
        unfold parkinsonStepChk
        rw [rd_getD high 0 i (by omega), rd_getD low 0 i (by omega)]
        rfl)
    rw [List.range_eq_range', filled_zero, hf, filled_all _ _ _ (by omega)]
  · intro h
    unfold parkinsonChk
    apply fillLoop_none _ _ _ _ low.length (by simp [h])
    intro o s
    unfold parkinsonStepChk
    rw [rd_getD high 0 _ h, rd_beyond low _ (le_refl _)]
    rfl

/-! ## Exponentially weighted deviations in time -/

/-- **C157 (`ewmst_mean0`).** The kernel stays inside the arrays and writes every entry exactly when there is a time for every value. -/
theorem C157_ewmst_mean0 (sqrt : K → K) (decay : Int → K) (floor : K) (ts : List Int) (y : List (Option K)) :
    (y.length ≤ ts.length → ewmst0Chk sqrt decay floor ts y = some ((ewmstMean0 sqrt decay floor ts y).map some)) ∧
    (ts.length < y.length → ewmst0Chk sqrt decay floor ts y = none) := by
  constructor
  · intro h
    unfold ewmst0Chk ewmstMean0
    by_cases hz : y.length = 0
    · rw [if_pos hz, hz]; rfl
    rw [if_neg hz]
    set g : Nat → Option K := fun i =>
      if i = 0 then none
      else
        let s := ewmst0State decay ts y i
        if s.2 > 0 then some (floorStd sqrt floor (s.1 / s.2)) else none with hg
    have h0 : rd ts 0 = some (ts.getD 0 0) := rd_getD ts 0 0 (by omega)
    have hw : wr (List.replicate y.length none) 0 (some (none : Option K)) = some (filled none y.length 1 g) := by
      rw [filled_zero _ _ g]
      exact wr_filled none y.length 0 g (by omega)
    have hf := fillLoop_filled (ewmst0StepChk sqrt decay floor ts y) none y.length g (fun i => (ewmst0State decay ts y (i - 1), ts.getD (i - 1) 0))
      (y.length - 1) 1 (by omega) (by
        intro i h3 h4
        unfold ewmst0StepChk
        rw [rd_getD ts 0 i (by omega), rd_getD y none i (by omega)]
        obtain ⟨j, rfl⟩ : ∃ j, i = j + 1 := ⟨i - 1, by omega⟩
        simp only [Option.bind_eq_bind, Option.bind_some, hg, Nat.add_sub_cancel, Nat.succ_ne_zero, if_false, ewmst0State, decayAt]
        cases y.getD (j + 1) none <;> rfl)
    simp only [h0, Option.bind_eq_bind, Option.bind_some, hw]
    have e : (ewmst0State decay ts y (1 - 1), ts.getD (1 - 1) 0) = (((0 : K), (0 : K)), ts.getD 0 0) := rfl
    rw [e] at hf
    rw [hf, filled_all _ _ _ (by omega)]
  · intro h
    unfold ewmst0Chk
    rw [if_neg (by omega)]
    by_cases hz : ts.length = 0
    · rw [rd_none ts (Or.inr (by omega))]; rfl
    rw [show rd ts 0 = some (ts.getD 0 0) from rd_getD ts 0 0 (by omega)]
    simp only [Option.bind_eq_bind, Option.bind_some]
    cases wr (List.replicate y.length none) 0 (some (none : Option K)) with
    | none => rfl
    | some out =>
      simp only [Option.bind_some]
      apply fillLoop_none _ _ _ _ ts.length (by simp [List.mem_range']; exact ⟨ts.length - 1, by omega, by omega⟩)
      intro o s
      unfold ewmst0StepChk
      rw [rd_beyond ts _ (le_refl _)]
      rfl

/-- **C157 (`ewmst`).** The same for the kernel with mean. -/
theorem C157_ewmst (sqrt : K → K) (decay : Int → K) (floor : K) (ts : List Int) (y : List (Option K)) :
    (y.length ≤ ts.length → ewmstChk sqrt decay floor ts y = some ((ewmst sqrt decay floor ts y).map some)) ∧
    (ts.length < y.length → ewmstChk sqrt decay floor ts y = none) := by
  constructor
  · intro h
    unfold ewmstChk ewmst
    by_cases hz : y.length = 0
    · rw [if_pos hz, hz]; rfl
    rw [if_neg hz]
    set g : Nat → Option K := fun i => if i = 0 then none else ewmstVal sqrt floor (ewmstState decay ts y i) with hg
    have h0 : rd ts 0 = some (ts.getD 0 0) := rd_getD ts 0 0 (by omega)
    have hw : wr (List.replicate y.length none) 0 (some (none : Option K)) = some (filled none y.length 1 g) := by
      rw [filled_zero _ _ g]
      exact wr_filled none y.length 0 g (by omega)
    have hf := fillLoop_filled (ewmstStepChk sqrt decay floor ts y) none y.length g (fun i => (ewmstState decay ts y (i - 1), ts.getD (i - 1) 0))
      (y.length - 1) 1 (by omega) (by
        intro i h3 h4
        unfold ewmstStepChk
        rw [rd_getD ts 0 i (by omega), rd_getD y none i (by omega)]
        obtain ⟨j, rfl⟩ : ∃ j, i = j + 1 := ⟨i - 1, by omega⟩
        simp only [Option.bind_eq_bind, Option.bind_some, hg, Nat.add_sub_cancel, Nat.succ_ne_zero, if_false, ewmstState, decayAt])
    simp only [h0, Option.bind_eq_bind, Option.bind_some, hw]
    have e : (ewmstState decay ts y (1 - 1), ts.getD (1 - 1) 0) = ((⟨0, 0, 0, 0⟩ : EwmAcc K), ts.getD 0 0) := rfl
    rw [e] at hf
    rw [hf, filled_all _ _ _ (by omega)]
  · intro h
    unfold ewmstChk
    rw [if_neg (by omega)]
    by_cases hz : ts.length = 0
    · rw [rd_none ts (Or.inr (by omega))]; rfl
    rw [show rd ts 0 = some (ts.getD 0 0) from rd_getD ts 0 0 (by omega)]
    simp only [Option.bind_eq_bind, Option.bind_some]
    cases wr (List.replicate y.length none) 0 (some (none : Option K)) with
    | none => rfl
    | some out =>
      simp only [Option.bind_some]
      apply fillLoop_none _ _ _ _ ts.length (by simp [List.mem_range']; exact ⟨ts.length - 1, by omega, by omega⟩)
      intro o s
      unfold ewmstStepChk
      rw [rd_beyond ts _ (le_refl _)]
      rfl

example : ewmst0Chk (fun x : ℚ => x) (fun _ => 1 / 2) 0 [0, 1] [none, some 3] = some [some none, some (some 9)] ∧
    ewmst0Chk (fun x : ℚ => x) (fun _ => 1 / 2) 0 [0] [none, some 3] = none := by decide +kernel

example : ewmstChk (fun x : ℚ => x) (fun _ => 1 / 2) 0 [0, 1, 2] [none, some 3, some 5] = some [some none, some (some 0), some (some 2)] ∧
    ewmstChk (fun x : ℚ => x) (fun _ => 1 / 2) 0 [0] [none, some 3, some 5] = none := by decide +kernel

end FinML

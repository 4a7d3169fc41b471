/-
C155: array accesses of the compiled bar loops.
-/
import Verif.Model.Checked

set_option linter.unusedSectionVars false

namespace FinML

variable {K : Type} [Field K] [LinearOrder K] [IsStrictOrderedRing K]

/-! ## Checked reads -/

/-- A checked read succeeds exactly inside the array. -/
theorem rd_isSome {α : Type} (xs : List α) (i : Int) : (rd xs i).isSome ↔ 0 ≤ i ∧ i < (xs.length : Int) := by
  unfold rd
  by_cases h : i < 0
  · simp only [h, if_true, Option.isSome_none, Bool.false_eq_true, false_iff]
    omega
  · simp only [h, if_false, isSome_getElem?]
    omega

theorem rd_eq {α : Type} (xs : List α) (d : α) {i : Int} (h0 : 0 ≤ i) (h1 : i < (xs.length : Int)) : rd xs i = some (pyGet xs d i) := by
  unfold rd pyGet
  have h : ¬ i < 0 := by omega
  simp only [h, if_false, List.getD_eq_getElem?_getD]
  have : i.toNat < xs.length := by omega
  simp [List.getElem?_eq_getElem this]

theorem rd_none {α : Type} (xs : List α) {i : Int} (h : i < 0 ∨ (xs.length : Int) ≤ i) : rd xs i = none := by
  have := (rd_isSome xs i).not
  rw [Bool.not_eq_true, Option.isSome_eq_false_iff, Option.isNone_iff_eq_none] at this
  exact this.mpr (by omega)

theorem mem_idxRange_iff {a b j : Int} : j ∈ idxRange a b ↔ a ≤ j ∧ j ≤ b := by
  unfold idxRange
  simp only [List.mem_map, List.mem_range]
  constructor
  · rintro ⟨k, hk, rfl⟩
    omega
  · intro h
    exact ⟨(j - a).toNat, by omega, by omega⟩

theorem length_idxRange (a b : Int) : (idxRange a b).length = (b + 1 - a).toNat := by simp [idxRange]

/-- The loop over the bars visits the consecutive pairs of close indices. -/
theorem barsChk_eq {β : Type} (body : Int → Int → Option β) (closes : List Int) :
    barsChk body closes = (closePairs closes).mapM (fun c => body c.1 c.2) := by
  have h : closePairs closes = (List.range (closes.length - 1)).map (fun i => (closes.getD i 0, closes.getD (i + 1) 0)) := by
    apply List.ext_getElem
    · simp [closePairs]
    · intro i h1 h2
      have hi : i + 1 < closes.length := by simp [closePairs] at h1; omega
      simp [closePairs, List.getElem?_eq_getElem hi, List.getElem?_eq_getElem (by omega : i < closes.length)]
  have hm : ∀ (l : List Nat) (f g : Nat → Option β), (∀ i ∈ l, f i = g i) → l.mapM f = l.mapM g := by
    intro l f g hfg
    induction l with
    | nil => rfl
    | cons x l ih => rw [List.mapM_cons, List.mapM_cons, hfg x (by simp), ih (fun i hi => hfg i (by simp [hi]))]
  rw [h, List.mapM_map, barsChk]
  apply hm
  intro i hi
  have hi' : i + 1 < closes.length := by have := List.mem_range.mp hi; omega
  have e1 : rd closes (i : Int) = some (closes.getD i 0) := by
    rw [rd_eq closes 0 (by omega) (by omega)]
    simp [pyGet, show ¬ ((i : Int) < 0) by omega]
  have e2 : rd closes ((i : Int) + 1) = some (closes.getD (i + 1) 0) := by
    rw [rd_eq closes 0 (by omega) (by omega)]
    have : ((i : Int) + 1).toNat = i + 1 := by omega
    simp [pyGet, show ¬ ((i : Int) + 1 < 0) by omega, this]
  simp [e1, e2]

theorem mapM_some_iff {α β : Type} (f : α → Option β) (g : α → β) (P : α → Prop) (hs : ∀ a, (f a).isSome ↔ P a) (he : ∀ a, P a → f a = some (g a))
    (l : List α) : ((l.mapM f).isSome ↔ ∀ a ∈ l, P a) ∧ ((∀ a ∈ l, P a) → l.mapM f = some (l.map g)) := by
  induction l with
  | nil => simp
  | cons a l ih =>
    constructor
    · rw [List.mapM_cons]
      by_cases hp : P a
      · rw [he a hp]
        cases hl : l.mapM f with
        | none =>
          have := ih.1
          rw [hl] at this
          simp only [Option.isSome_none, Bool.false_eq_true, false_iff] at this
          simp only [List.mem_cons, forall_eq_or_imp, hp, true_and]
          simpa using this
        | some r =>
          have := ih.1
          rw [hl] at this
          simp only [Option.isSome_some, true_iff] at this
          simp only [List.mem_cons, forall_eq_or_imp, hp, true_and]
          simpa using this
      · have hn : f a = none := by
          have := (hs a).not.mpr hp
          simpa using this
        rw [hn]
        simp [hp]
    · intro h
      rw [List.mapM_cons, he a (h a (by simp)), ih.2 (fun b hb => h b (by simp [hb]))]
      rfl

/-! ## Open, high, low, close, volume -/

theorem ohlcvFold (prices volumes : List K) (js : List Int) (acc : OhlcvAcc K) (pre suf : List K)
    (hp : ∀ j ∈ js, 0 ≤ j ∧ j < (prices.length : Int)) (hv : ∀ j ∈ js, 0 ≤ j ∧ j < (volumes.length : Int)) (hl : js.length = suf.length) :
    js.foldlM (ohlcvStepChk prices volumes) ⟨acc, pre ++ suf, (pre.length : Int)⟩ =
      some ⟨(js.map (fun j => (pyGet prices 0 j, pyGet volumes 0 j))).foldl ohlcvStep acc, pre ++ js.map (fun j => pyGet volumes 0 j),
        ((pre.length + js.length : Nat) : Int)⟩ := by
  induction js generalizing acc pre suf with
  | nil =>
    have : suf = [] := List.length_eq_zero_iff.mp hl.symm
    simp [this]
  | cons j js ih =>
    cases suf with
    | nil => simp at hl
    | cons x suf =>
      have h1 := rd_eq prices 0 (hp j (by simp)).1 (hp j (by simp)).2
      have h2 := rd_eq volumes 0 (hv j (by simp)).1 (hv j (by simp)).2
      have h3 : wr (pre ++ x :: suf) (pre.length : Int) (pyGet volumes 0 j) = some ((pre ++ [pyGet volumes 0 j]) ++ suf) := by
        unfold wr
        rw [if_pos ⟨by omega, by simp⟩]
        simp
      have h4 : ohlcvStepChk prices volumes ⟨acc, pre ++ x :: suf, (pre.length : Int)⟩ j =
          some ⟨ohlcvStep acc (pyGet prices 0 j, pyGet volumes 0 j), (pre ++ [pyGet volumes 0 j]) ++ suf,
            ((pre ++ [pyGet volumes 0 j]).length : Int)⟩ := by
        simp [ohlcvStepChk, h1, h2, h3]
      rw [List.foldlM_cons, h4]
      show List.foldlM _ _ js = _
      rw [ih (ohlcvStep acc (pyGet prices 0 j, pyGet volumes 0 j)) (pre ++ [pyGet volumes 0 j]) suf (fun k hk => hp k (by simp [hk]))
        (fun k hk => hv k (by simp [hk])) (by simpa using hl)]
      simp [Nat.add_assoc, Nat.add_comm 1]

/-- A pair of close indices whose bar `comp_bar_ohlcv` computes from trades inside the arrays. -/
def OhlcvSafe (n : Nat) (a b : Int) : Prop := (a = b ∧ 0 ≤ b ∧ b < (n : Int)) ∨ (-1 ≤ a ∧ a < b ∧ b < (n : Int))

theorem ohlcvBarChk_eq (prices volumes : List K) (hl : prices.length = volumes.length) (a b : Int) (h : OhlcvSafe prices.length a b) :
    ohlcvBarChk prices volumes a b = some (ohlcvBar prices volumes a b) := by
  rcases h with ⟨h1, h2, h3⟩ | ⟨h1, h2, h3⟩
  · subst h1
    simp [ohlcvBarChk, ohlcvBar, rd_eq prices 0 h2 h3]
  · have hne : a ≠ b := by omega
    have hp : ∀ j ∈ idxRange (a + 1) b, 0 ≤ j ∧ j < (prices.length : Int) := by
      intro j hj
      have := mem_idxRange_iff.mp hj
      omega
    have hv : ∀ j ∈ idxRange (a + 1) b, 0 ≤ j ∧ j < (volumes.length : Int) := by
      intro j hj
      have := hp j hj
      omega
    have hlen : (idxRange (a + 1) b).length = (List.replicate (b - (a + 1) + 1).toNat (0 : K)).length := by
      rw [length_idxRange, List.length_replicate]
      congr 1; ring
    have hf := ohlcvFold prices volumes (idxRange (a + 1) b) ⟨pyGet prices 0 (a + 1), pyGet prices 0 (a + 1), 0, 0⟩ []
      (List.replicate (b - (a + 1) + 1).toNat 0) hp hv hlen
    simp only [List.nil_append, List.length_nil, Nat.cast_zero] at hf
    have hc : ¬ (b - (a + 1) + 1 < 0) := by omega
    simp only [ohlcvBarChk, hne, if_false, rd_eq prices 0 (show 0 ≤ a + 1 by omega) (show a + 1 < (prices.length : Int) by omega),
      rd_eq prices 0 (show 0 ≤ b by omega) h3, Option.bind_eq_bind, Option.bind_some, hc, hf, ohlcvBar]

theorem ohlcvBarChk_isSome (prices volumes : List K) (hl : prices.length = volumes.length) (a b : Int) :
    (ohlcvBarChk prices volumes a b).isSome ↔ OhlcvSafe prices.length a b := by
  constructor
  · intro h
    by_contra hc
    apply absurd h
    rw [Bool.not_eq_true, Option.isSome_eq_false_iff, Option.isNone_iff_eq_none]
    unfold OhlcvSafe at hc
    unfold ohlcvBarChk
    by_cases hab : a = b
    · rw [if_pos hab, rd_none prices (by omega)]
      rfl
    · rw [if_neg hab]
      simp only []
      by_cases h1 : a < -1
      · simp [rd_none prices (show a + 1 < 0 ∨ _ by omega)]
      · cases hr : rd prices (a + 1) with
        | none => rfl
        | some p0 =>
          simp only [Option.bind_eq_bind, Option.bind_some]
          by_cases h2 : b - (a + 1) + 1 < 0
          · rw [if_pos h2]
          · rw [if_neg h2, rd_none prices (show b < 0 ∨ (prices.length : Int) ≤ b by omega)]
            generalize List.foldlM (ohlcvStepChk prices volumes) _ _ = q
            cases q <;> rfl
  · intro h
    rw [ohlcvBarChk_eq prices volumes hl a b h]
    rfl

/-- The whole table: the run stays inside the arrays exactly when every bar does, and its result is then the one of the model. -/
theorem C155_ohlcv (prices volumes : List K) (closes : List Int) (hl : prices.length = volumes.length) (hc : 2 ≤ closes.length) :
    ((compBarOhlcvChk prices volumes closes).isSome ↔ ∀ c ∈ closePairs closes, OhlcvSafe prices.length c.1 c.2) ∧
    ((∀ c ∈ closePairs closes, OhlcvSafe prices.length c.1 c.2) →
      compBarOhlcvChk prices volumes closes = some (compBarOhlcv prices volumes closes)) := by
  have h := mapM_some_iff (fun c : Int × Int => ohlcvBarChk prices volumes c.1 c.2) (fun c => ohlcvBar prices volumes c.1 c.2)
    (fun c => OhlcvSafe prices.length c.1 c.2) (fun c => ohlcvBarChk_isSome prices volumes hl c.1 c.2)
    (fun c hs => ohlcvBarChk_eq prices volumes hl c.1 c.2 hs) (closePairs closes)
  have hl' : ¬ prices.length ≠ volumes.length := by simp [hl]
  have hc' : ¬ closes.length < 2 := by omega
  unfold compBarOhlcvChk compBarOhlcv
  rw [if_neg hl', if_neg hc', if_neg hl', if_neg hc', barsChk_eq, Option.isSome_map]
  exact ⟨h.1, fun hs => by rw [h.2 hs]; rfl⟩

example : compBarOhlcvChk (K := ℚ) [10, 12, 11, 13] [1, 2, 3, 4] [-1, 1, 1, 3] = some (compBarOhlcv [10, 12, 11, 13] [1, 2, 3, 4] [-1, 1, 1, 3]) ∧
    compBarOhlcvChk (K := ℚ) [10, 12, 11, 13] [1, 2, 3, 4] [-1, -1, 3] = none ∧
    compBarOhlcvChk (K := ℚ) [10, 12, 11, 13] [1, 2, 3, 4] [0, 4] = none := by decide +kernel

/-! ## Directional features -/

theorem dirStepChk_eq (prices volumes : List K) (sides : List Int) (s : DirAcc K) (j : Int) (hs : j < (sides.length : Int))
    (hp : j < (prices.length : Int)) (hv : j < (volumes.length : Int)) (h1 : 1 ≤ j) :
    dirStepChk prices volumes sides s j =
      some (dirStep s ⟨pyGet sides 0 j, pyGet prices 0 j, pyGet prices 0 (j - 1), pyGet volumes 0 j⟩) := by
  have e1 := rd_eq sides 0 (show 0 ≤ j by omega) hs
  have e2 := rd_eq prices 0 (show 0 ≤ j by omega) hp
  have e3 := rd_eq prices 0 (show 0 ≤ j - 1 by omega) (by omega)
  have e4 := rd_eq volumes 0 (show 0 ≤ j by omega) hv
  simp only [dirStepChk, dirStep, dirSpread, e1, e2, e3, e4, Option.bind_eq_bind, Option.bind_some]
  by_cases ha : pyGet sides 0 j ≠ s.prevSign
  · simp only [ha, if_true, Option.bind_some, ne_eq, not_false_eq_true]
    by_cases hb : pyGet sides 0 j = 1
    · simp [hb]
    · by_cases hc : pyGet sides 0 j = -1
      · simp [hc]
      · simp [hb, hc]
  · simp only [ha, if_false, Option.bind_some]
    by_cases hb : pyGet sides 0 j = 1
    · simp [hb]
    · by_cases hc : pyGet sides 0 j = -1
      · simp [hc]
      · simp [hb, hc]

theorem dirFold (prices volumes : List K) (sides : List Int) (hp : prices.length = sides.length) (hv : volumes.length = sides.length) (js : List Int)
    (s : DirAcc K) (hj : ∀ j ∈ js, 1 ≤ j ∧ j < (sides.length : Int)) :
    js.foldlM (dirStepChk prices volumes sides) s =
      some ((js.map (fun j => (⟨pyGet sides 0 j, pyGet prices 0 j, pyGet prices 0 (j - 1), pyGet volumes 0 j⟩ : DirTick K))).foldl dirStep s) := by
  induction js generalizing s with
  | nil => rfl
  | cons j js ih =>
    have := hj j (by simp)
    rw [List.foldlM_cons, dirStepChk_eq prices volumes sides s j this.2 (by omega) (by omega) this.1]
    show List.foldlM _ _ js = _
    rw [ih _ (fun k hk => hj k (by simp [hk]))]
    rfl

/-- A bar whose first index is a trade: everything the directional features read lies inside the arrays. -/
theorem C155_directional_bar (prices volumes : List K) (sides : List Int) (hp : prices.length = sides.length) (hv : volumes.length = sides.length)
    (a b : Int) (ha : 0 ≤ a) (hb : b < (sides.length : Int)) :
    dirBarChk prices volumes sides a b = some (dirBar prices volumes sides a b) := by
  have hj : ∀ j ∈ idxRange (a + 1) b, 1 ≤ j ∧ j < (sides.length : Int) := by
    intro j hj
    have := mem_idxRange_iff.mp hj
    omega
  have hf := fun s => dirFold prices volumes sides hp hv (idxRange (a + 1) b) s hj
  unfold dirBarChk
  by_cases h : b > a + 1
  · simp only [h, if_true, rd_eq sides 0 (show 0 ≤ a + 1 - 1 by omega) (show a + 1 - 1 < (sides.length : Int) by omega), Option.bind_eq_bind,
      Option.bind_some, hf, dirOut, dirBar]
  · simp only [h, if_false, Option.bind_eq_bind, Option.bind_some, hf, dirOut, dirBar]

/-- The bar that starts before the first trade (close index -1, the first time bar): the run leaves the arrays at index -1 whenever the bar has two
trades, and whenever its only trade has a side. -/
theorem C155_directional_first (prices volumes : List K) (sides : List Int) (b : Int)
    (hb : 1 ≤ b ∨ (b = 0 ∧ pyGet sides 0 0 ≠ 0)) : dirBarChk prices volumes sides (-1) b = none := by
  rcases hb with hb | ⟨rfl, hs⟩
  · unfold dirBarChk
    have h : b > -1 + 1 := by omega
    simp only [h, if_true]
    rw [rd_none sides (show (-1 : Int) + 1 - 1 < 0 ∨ _ from Or.inl (by omega))]
    rfl
  · have hr : idxRange (-1 + 1) 0 = [0] := by decide
    unfold dirBarChk
    simp only [show ¬ ((0 : Int) > -1 + 1) by omega, if_false, hr, Option.bind_eq_bind, Option.bind_some, List.foldlM_cons, List.foldlM_nil]
    have : dirStepChk prices volumes sides (dirInit 0 : DirAcc K) 0 = none := by
      unfold dirStepChk
      cases hc : rd sides 0 with
      | none => rfl
      | some x =>
        have hx : x = pyGet sides 0 0 := by
          have hin := (rd_isSome sides 0).mp (by rw [hc]; rfl)
          rw [rd_eq sides 0 hin.1 hin.2] at hc
          exact (Option.some.inj hc).symm
        have hne : x ≠ (dirInit 0 : DirAcc K).prevSign := by rw [hx]; exact hs
        have hm : rd prices ((0 : Int) - 1) = none := rd_none prices (Or.inl (by omega))
        simp only [Option.bind_eq_bind, Option.bind_some, hne, ne_eq, not_false_eq_true, if_true, hm, Option.bind_none]
        cases rd prices 0 <;> rfl
    rw [this]
    rfl

/-- The table of directional features: with a first index at a trade and indices below the number of trades, the run is safe and gives the model's
result. -/
theorem C155_directional (prices volumes : List K) (sides closes : List Int) (hp : prices.length = sides.length) (hv : volumes.length = sides.length)
    (hc : ∀ c ∈ closes, 0 ≤ c ∧ c < (sides.length : Int)) :
    compBarDirectionalChk prices volumes sides closes = some (compBarDirectional prices volumes sides closes) := by
  have hpair : ∀ c ∈ closePairs closes, (0 ≤ c.1 ∧ c.1 < (sides.length : Int)) ∧ c.2 < (sides.length : Int) := by
    intro c h
    have h1 := (List.of_mem_zip h).1
    have h2 := List.mem_of_mem_tail (List.of_mem_zip h).2
    exact ⟨hc _ h1, (hc _ h2).2⟩
  unfold compBarDirectionalChk compBarDirectional
  rw [barsChk_eq]
  generalize closePairs closes = l at hpair
  induction l with
  | nil => rfl
  | cons c l ih =>
    have h := hpair c (by simp)
    rw [List.mapM_cons, C155_directional_bar prices volumes sides hp hv c.1 c.2 h.1.1 h.2, ih (fun d hd => hpair d (by simp [hd]))]
    rfl

example : compBarDirectionalChk (K := ℚ) [10, 12, 11, 13] [1, 2, 3, 4] [1, -1, 1, 1] [0, 2, 3] =
      some (compBarDirectional [10, 12, 11, 13] [1, 2, 3, 4] [1, -1, 1, 1] [0, 2, 3]) ∧
    compBarDirectionalChk (K := ℚ) [10, 12, 11, 13] [1, 2, 3, 4] [1, -1, 1, 1] [-1, 2, 3] = none ∧
    compBarDirectionalChk (K := ℚ) [10, 12, 11, 13] [1, 2, 3, 4] [0, -1, 1, 1] [-1, 0, 3] ≠ none := by decide +kernel

/-! ## Footprints -/

/-- All level arrays of a footprint have `n` entries. -/
def LevelsLen (n : Nat) (st : Levels K) : Prop :=
  st.buyVol.length = n ∧ st.sellVol.length = n ∧ st.buyTicks.length = n ∧ st.sellTicks.length = n

theorem rdwr_modify {α : Type} (xs : List α) (i : Int) (f : α → α) (h0 : 0 ≤ i) (h1 : i < (xs.length : Int)) :
    ∃ v, rd xs i = some v ∧ wr xs i (f v) = some (xs.modify i.toNat f) := by
  have hi : i.toNat < xs.length := by omega
  refine ⟨xs[i.toNat], ?_, ?_⟩
  · simp [rd, show ¬ i < 0 by omega, List.getElem?_eq_getElem hi]
  · simp only [wr, h0, h1, and_self, if_true, Option.some.injEq]
    rw [List.modify_eq_set_getElem?, List.getElem?_eq_getElem hi]
    rfl

theorem levelStepChk_eq (rnd : K → Int) (prices amounts : List K) (sides : List Int) (hp : prices.length = sides.length)
    (ha : amounts.length = sides.length) (low : Int) (n : Nat) (st : Levels K) (hst : LevelsLen n st) (j : Int) (h0 : 0 ≤ j)
    (h1 : j < (sides.length : Int)) :
    levelStepChk rnd prices amounts sides low n st j =
      some (levelStep rnd low n st (pyGet prices 0 j, pyGet amounts 0 j, pyGet sides 0 j)) ∧
    ∀ st', levelStep rnd low n st (pyGet prices 0 j, pyGet amounts 0 j, pyGet sides 0 j) = .ok st' → LevelsLen n st' := by
  obtain ⟨l1, l2, l3, l4⟩ := hst
  unfold levelStepChk levelStep
  simp only [rd_eq prices 0 h0 (show j < (prices.length : Int) by omega), rd_eq sides 0 h0 h1,
    rd_eq amounts 0 h0 (show j < (amounts.length : Int) by omega), Option.bind_eq_bind, Option.bind_some]
  by_cases hi : 0 ≤ rnd (pyGet prices 0 j) - low ∧ rnd (pyGet prices 0 j) - low < n
  · rw [if_pos hi, if_pos hi]
    by_cases hb : pyGet sides 0 j = 1
    · rw [if_pos hb, if_pos hb]
      obtain ⟨v, e1, e2⟩ := rdwr_modify st.buyVol _ (· + pyGet amounts 0 j) hi.1 (by omega)
      obtain ⟨t, e3, e4⟩ := rdwr_modify st.buyTicks _ (· + 1) hi.1 (by omega)
      refine ⟨by simp [e1, e2, e3, e4], ?_⟩
      intro st' h
      injection h with h
      subst h
      exact ⟨by simpa using l1, l2, by simpa using l3, l4⟩
    · rw [if_neg hb, if_neg hb]
      by_cases hs : pyGet sides 0 j = -1
      · rw [if_pos hs, if_pos hs]
        obtain ⟨v, e1, e2⟩ := rdwr_modify st.sellVol _ (· + pyGet amounts 0 j) hi.1 (by omega)
        obtain ⟨t, e3, e4⟩ := rdwr_modify st.sellTicks _ (· + 1) hi.1 (by omega)
        refine ⟨by simp [e1, e2, e3, e4], ?_⟩
        intro st' h
        injection h with h
        subst h
        exact ⟨l1, by simpa using l2, l3, by simpa using l4⟩
      · rw [if_neg hs, if_neg hs]
        refine ⟨rfl, ?_⟩
        intro st' h
        injection h with h
        subst h
        exact ⟨l1, l2, l3, l4⟩
  · rw [if_neg hi, if_neg hi]
    exact ⟨rfl, fun st' h => by cases h⟩

/-- The footprint loop of a bar of trades inside the arrays: the level arrays are written inside their bounds for any prices, because the level index
is tested first, and the result is the model's. -/
theorem C155_footprint (rnd : K → Int) (prices amounts : List K) (sides : List Int) (hp : prices.length = sides.length)
    (ha : amounts.length = sides.length) (low : Int) (n : Nat) (js : List Int) (hj : ∀ j ∈ js, 0 ≤ j ∧ j < (sides.length : Int)) (st : Levels K)
    (hst : LevelsLen n st) :
    levelLoopChk rnd prices amounts sides low n js st =
      some (levelLoop rnd low n st (js.map (fun j => (pyGet prices 0 j, pyGet amounts 0 j, pyGet sides 0 j)))) := by
  induction js generalizing st with
  | nil => rfl
  | cons j js ih =>
    have h := hj j (by simp)
    obtain ⟨e, hk⟩ := levelStepChk_eq rnd prices amounts sides hp ha low n st hst j h.1 h.2
    simp only [levelLoopChk, e, List.map_cons, levelLoop]
    cases hs : levelStep rnd low n st (pyGet prices 0 j, pyGet amounts 0 j, pyGet sides 0 j) with
    | error x => rfl
    | ok st' => exact ih (fun k hk => hj k (by simp [hk])) st' (hk st' hs)

example : LevelsLen 3 (Levels.zero 3 : Levels ℚ) := ⟨rfl, rfl, rfl, rfl⟩

example : levelLoopChk (K := ℚ) (fun p => p.floor) [10, 12, 11] [1, 2, 3] [1, -1, 1] 10 3 [1, 2] (Levels.zero 3) =
      some (.ok ⟨[0, 3, 0], [0, 0, 2], [0, 1, 0], [0, 0, 1]⟩) ∧
    levelLoopChk (K := ℚ) (fun p => p.floor) [10, 12, 11] [1, 2, 3] [1, -1, 1] 10 3 [2, 3] (Levels.zero 3) = none := by decide +kernel

end FinML

/-
C41: the developing volume profile.  C57: the rolling volume profile.
-/
import Verif.Model.VolumeProfile
import Verif.Props.Buckets
import Mathlib.Data.List.TakeWhile

set_option linter.unusedSectionVars false

namespace FinML

variable {K : Type} [Field K] [LinearOrder K] [IsStrictOrderedRing K]

/-! ### Sequences of writes -/

theorem writeAll_length {A : Type} (a b : List A) (ws : List (Nat × A)) (h : writeAll a ws = some b) :
    b.length = a.length := by
  induction ws generalizing a with
  | nil => simp only [writeAll, Option.some.injEq] at h; rw [h]
  | cons w ws ih =>
    obtain ⟨i, v⟩ := w
    simp only [writeAll, writeAt] at h
    by_cases hi : i < a.length
    · rw [if_pos hi] at h; rw [ih _ h, List.length_set]
    · rw [if_neg hi] at h; simp at h

theorem writeAll_isSome_iff {A : Type} (a : List A) (ws : List (Nat × A)) :
    (∃ b, writeAll a ws = some b) ↔ ∀ w ∈ ws, w.1 < a.length := by
  induction ws generalizing a with
  | nil => simp [writeAll]
  | cons w ws ih =>
    obtain ⟨i, v⟩ := w
    simp only [writeAll, writeAt]
    by_cases hi : i < a.length
    · rw [if_pos hi]
      simp only []
      rw [ih]
      simp [hi]
    · rw [if_neg hi]
      simp [hi]

theorem writeAll_get {A : Type} (a b : List A) (ws : List (Nat × A)) (h : writeAll a ws = some b)
    (hnd : (ws.map Prod.fst).Nodup) :
    (∀ w ∈ ws, b[w.1]? = some w.2) ∧ (∀ k, k ∉ ws.map Prod.fst → b[k]? = a[k]?) := by
  induction ws generalizing a with
  | nil => simp only [writeAll, Option.some.injEq] at h; subst h; simp
  | cons w ws ih =>
    obtain ⟨i, v⟩ := w
    simp only [writeAll, writeAt] at h
    by_cases hi : i < a.length
    · rw [if_pos hi] at h
      rw [List.map_cons, List.nodup_cons] at hnd
      obtain ⟨h1, h2⟩ := ih _ h hnd.2
      constructor
      · intro w hw
        rcases List.mem_cons.mp hw with rfl | hw
        · rw [h2 _ hnd.1, List.getElem?_set_self hi]
        · exact h1 w hw
      · intro k hk
        rw [List.map_cons, List.mem_cons, not_or] at hk
        rw [h2 k hk.2, List.getElem?_set_ne (fun e => hk.1 e.symm)]
    · rw [if_neg hi] at h; simp at h

/-! ### C41 -/

theorem devRange_iff (bars : List (FpBar K)) (startTs endTs : Int) (hs : (bars.map FpBar.ts).Pairwise (· ≤ ·))
    (j : Nat) (hj : j < bars.length) :
    (j < (devRange bars startTs endTs).1 ↔ bars[j].ts < startTs) ∧
      (j < (devRange bars startTs endTs).2 ↔ bars[j].ts ≤ endTs) := by
  unfold devRange
  simp only []
  rw [lt_searchLeft hs _ _ (by simpa using hj), lt_searchRight hs _ _ (by simpa using hj), List.getElem_map]
  exact ⟨Iff.rfl, Iff.rfl⟩

/-- The writes stay inside the output arrays exactly when the query starts at or before the first bar, or
selects nothing. -/
theorem developingFill_isSome_iff (rnd : K → Int) (r8 : K → K) (bars : List (FpBar K)) (startTs endTs : Int)
    (nBins : Option Int) (pct : K) (hs : (bars.map FpBar.ts).Pairwise (· ≤ ·)) :
    (∃ out, developingFill rnd r8 bars startTs endTs nBins pct = some out) ↔
      (∀ b ∈ bars, startTs ≤ b.ts) ∨ (∀ b ∈ bars, ¬ (startTs ≤ b.ts ∧ b.ts ≤ endTs)) := by
  unfold developingFill
  simp only []
  rw [writeAll_isSome_iff]
  have key := devRange_iff bars startTs endTs hs
  have hle : (devRange bars startTs endTs).2 ≤ bars.length := by
    have := searchRight_le_length (bars.map FpBar.ts) endTs
    rwa [List.length_map] at this
  have hle1 : (devRange bars startTs endTs).1 ≤ bars.length := by
    have := searchLeft_le_length (bars.map FpBar.ts) startTs
    rwa [List.length_map] at this
  have hw : (∀ w ∈ developingWrites rnd r8 bars startTs endTs nBins pct,
      w.1 < (List.replicate ((devRange bars startTs endTs).2 - (devRange bars startTs endTs).1)
        (Except.ok (0, 0, 0) : Except String (Int × Int × Int))).length) ↔
      (devRange bars startTs endTs).1 = 0 ∨ (devRange bars startTs endTs).2 ≤ (devRange bars startTs endTs).1 := by
    rw [List.length_replicate]
    unfold developingWrites
    simp only []
    generalize (devRange bars startTs endTs).1 = s
    generalize (devRange bars startTs endTs).2 = e
    constructor
    · intro h
      by_contra hc
      have := h (s + (e - s - 1), _) (List.mem_map.mpr ⟨e - s - 1, List.mem_range.mpr (by omega), rfl⟩)
      simp only [] at this
      omega
    · intro h w hw
      obtain ⟨k, hk, rfl⟩ := List.mem_map.mp hw
      rw [List.mem_range] at hk
      simp only []
      omega
  rw [hw]
  generalize (devRange bars startTs endTs).1 = s at *
  generalize (devRange bars startTs endTs).2 = e at *
  constructor
  · rintro (h | h)
    · left
      intro b hb
      obtain ⟨i, hi, rfl⟩ := List.getElem_of_mem hb
      by_contra hc
      have := (key i hi).1.mpr (by omega)
      omega
    · right
      rintro b hb ⟨h1, h2⟩
      obtain ⟨i, hi, rfl⟩ := List.getElem_of_mem hb
      have a1 := (key i hi).2.mpr h2
      have a2 : ¬ i < s := by rw [(key i hi).1]; omega
      omega
  · rintro (h | h)
    · left
      by_contra hc
      have := (key 0 (by omega)).1.mp (by omega)
      have := h _ (List.getElem_mem (show 0 < bars.length by omega))
      omega
    · right
      by_contra hc
      have a1 := (key s (by omega)).2.mp (by omega)
      have a2 : ¬ bars[s].ts < startTs := by rw [← (key s (by omega)).1]; omega
      exact h _ (List.getElem_mem (show s < bars.length by omega)) ⟨by omega, a1⟩

/-- For queries that start at or before the first bar every output position is filled with the profile of the bars so
far. -/
theorem developingFill_from_start (rnd : K → Int) (r8 : K → K) (bars : List (FpBar K)) (startTs endTs : Int)
    (nBins : Option Int) (pct : K) (hs : (bars.map FpBar.ts).Pairwise (· ≤ ·))
    (h0 : ∀ b ∈ bars, startTs ≤ b.ts) :
    ∃ out, developingFill rnd r8 bars startTs endTs nBins pct = some out ∧
      out.length = (bars.filter (fun b => decide (b.ts ≤ endTs))).length ∧
      ∀ k, k < out.length → out[k]? = some (developingAt rnd r8 (bars.filter (fun b => decide (b.ts ≤ endTs))) nBins pct k) := by
  obtain ⟨out, hout⟩ := (developingFill_isSome_iff rnd r8 bars startTs endTs nBins pct hs).mpr (Or.inl h0)
  refine ⟨out, hout, ?_⟩
  have key := devRange_iff bars startTs endTs hs
  have hle : (devRange bars startTs endTs).2 ≤ bars.length := by
    have := searchRight_le_length (bars.map FpBar.ts) endTs
    rwa [List.length_map] at this
  have hs0 : (devRange bars startTs endTs).1 = 0 := by
    by_contra hc
    have hle1 : (devRange bars startTs endTs).1 ≤ bars.length := by
      have := searchLeft_le_length (bars.map FpBar.ts) startTs
      rwa [List.length_map] at this
    have := (key 0 (by omega)).1.mp (by omega)
    have := h0 _ (List.getElem_mem (show 0 < bars.length by omega))
    omega
  unfold developingFill developingWrites at hout
  simp only [] at hout
  rw [hs0] at hout
  generalize (devRange bars startTs endTs).2 = e at *
  have hsel : bars.filter (fun b => decide (b.ts ≤ endTs)) = (bars.take e).drop 0 := by
    rw [List.drop_zero]
    conv_lhs => rw [← List.take_append_drop e bars]
    rw [List.filter_append, List.filter_eq_self.mpr, List.filter_eq_nil_iff.mpr, List.append_nil]
    · intro b hb
      obtain ⟨i, hi, rfl⟩ := List.getElem_of_mem hb
      rw [List.length_drop] at hi
      rw [List.getElem_drop]
      have a1 : ¬ bars[e + i].ts ≤ endTs := by rw [← (key (e + i) (by omega)).2]; omega
      simpa using a1
    · intro b hb
      obtain ⟨i, hi, rfl⟩ := List.getElem_of_mem hb
      rw [List.length_take] at hi
      rw [List.getElem_take]
      have a1 := (key i (by omega)).2.mp (by omega)
      simpa using a1
  rw [hsel]
  have hl := writeAll_length _ _ _ hout
  rw [List.length_replicate] at hl
  refine ⟨?_, ?_⟩
  · rw [hl, List.drop_zero, List.length_take]; omega
  · intro k hk
    have hnd : (((List.range (e - 0)).map (fun k => (0 + k, developingAt rnd r8 ((bars.take e).drop 0) nBins pct k))).map
        Prod.fst).Nodup := by
      rw [List.map_map]
      have : (Prod.fst ∘ fun k => (0 + k, developingAt rnd r8 ((bars.take e).drop 0) nBins pct k)) = id := by
        funext k; simp
      rw [this, List.map_id]
      exact List.nodup_range
    have := (writeAll_get _ _ _ hout hnd).1 (0 + k, _) (List.mem_map.mpr ⟨k, List.mem_range.mpr (by omega), rfl⟩)
    simpa using this

theorem devRange_empty_iff (bars : List (FpBar K)) (startTs endTs : Int) (hs : (bars.map FpBar.ts).Pairwise (· ≤ ·)) :
    (devRange bars startTs endTs).2 ≤ (devRange bars startTs endTs).1 ↔
      ∀ b ∈ bars, ¬ (startTs ≤ b.ts ∧ b.ts ≤ endTs) := by
  have key := devRange_iff bars startTs endTs hs
  have hle : (devRange bars startTs endTs).2 ≤ bars.length := by
    have := searchRight_le_length (bars.map FpBar.ts) endTs
    rwa [List.length_map] at this
  generalize (devRange bars startTs endTs).1 = s at *
  generalize (devRange bars startTs endTs).2 = e at *
  constructor
  · rintro h b hb ⟨h1, h2⟩
    obtain ⟨i, hi, rfl⟩ := List.getElem_of_mem hb
    have a1 := (key i hi).2.mpr h2
    have a2 : ¬ i < s := by rw [(key i hi).1]; omega
    omega
  · intro h
    by_contra hc
    have a1 := (key s (by omega)).2.mp (by omega)
    have a2 : ¬ bars[s].ts < startTs := by rw [← (key s (by omega)).1]; omega
    exact h _ (List.getElem_mem (show s < bars.length by omega)) ⟨by omega, a1⟩

/-- The developing profile returns only when the query selects a bar and starts at or before the first bar. -/
theorem C41_in_bounds_iff (rnd : K → Int) (r8 : K → K) (bars : List (FpBar K)) (startTs endTs : Int)
    (nBins : Option Int) (pct : K) (hs : (bars.map FpBar.ts).Pairwise (· ≤ ·)) :
    (∃ out, volumeProfileDeveloping rnd r8 bars startTs endTs nBins pct = .ok out) ↔
      (∀ b ∈ bars, startTs ≤ b.ts) ∧ ∃ b ∈ bars, startTs ≤ b.ts ∧ b.ts ≤ endTs := by
  have h1 := devRange_empty_iff bars startTs endTs hs
  have h2 := developingFill_isSome_iff rnd r8 bars startTs endTs nBins pct hs
  unfold volumeProfileDeveloping
  simp only []
  by_cases he : (devRange bars startTs endTs).2 ≤ (devRange bars startTs endTs).1
  · rw [if_pos he]
    have := h1.mp he
    constructor
    · rintro ⟨_, h⟩; cases h
    · rintro ⟨_, b, hb, h⟩; exact absurd h (this b hb)
  · rw [if_neg he]
    have hne : ∃ b ∈ bars, startTs ≤ b.ts ∧ b.ts ≤ endTs := by
      by_contra hc
      exact he (h1.mpr (fun b hb h => hc ⟨b, hb, h⟩))
    cases hf : developingFill rnd r8 bars startTs endTs nBins pct with
    | some out =>
      refine ⟨fun _ => ⟨?_, hne⟩, fun _ => ⟨out, rfl⟩⟩
      rcases h2.mp ⟨out, hf⟩ with h | h
      · exact h
      · exact absurd (h1.mpr h) he
    | none =>
      constructor
      · rintro ⟨_, h⟩; cases h
      · rintro ⟨h, _⟩
        obtain ⟨out, ho⟩ := h2.mpr (Or.inl h)
        rw [hf] at ho; cases ho

/-- It writes outside its arrays exactly when the query selects a bar and leaves an earlier bar out. -/
theorem C41_out_of_bounds_iff (rnd : K → Int) (r8 : K → K) (bars : List (FpBar K)) (startTs endTs : Int)
    (nBins : Option Int) (pct : K) (hs : (bars.map FpBar.ts).Pairwise (· ≤ ·)) :
    volumeProfileDeveloping rnd r8 bars startTs endTs nBins pct = .error "out of bounds" ↔
      (∃ b ∈ bars, startTs ≤ b.ts ∧ b.ts ≤ endTs) ∧ ∃ b ∈ bars, b.ts < startTs := by
  have h1 := devRange_empty_iff bars startTs endTs hs
  have h2 := developingFill_isSome_iff rnd r8 bars startTs endTs nBins pct hs
  unfold volumeProfileDeveloping
  simp only []
  by_cases he : (devRange bars startTs endTs).2 ≤ (devRange bars startTs endTs).1
  · rw [if_pos he]
    have := h1.mp he
    constructor
    · intro h; simp at h
    · rintro ⟨⟨b, hb, h⟩, _⟩; exact absurd h (this b hb)
  · rw [if_neg he]
    have hne : ∃ b ∈ bars, startTs ≤ b.ts ∧ b.ts ≤ endTs := by
      by_contra hc
      exact he (h1.mpr (fun b hb h => hc ⟨b, hb, h⟩))
    cases hf : developingFill rnd r8 bars startTs endTs nBins pct with
    | some out =>
      constructor
      · intro h; cases h
      · rintro ⟨_, b, hb, hlt⟩
        rcases h2.mp ⟨out, hf⟩ with h | h
        · have := h b hb; omega
        · exact absurd (h1.mpr h) he
    | none =>
      refine ⟨fun _ => ⟨hne, ?_⟩, fun _ => rfl⟩
      by_contra hc
      obtain ⟨out, ho⟩ := h2.mpr (Or.inl (fun b hb => by by_contra hb'; exact hc ⟨b, hb, by omega⟩))
      rw [hf] at ho; cases ho

/-- Witness: a query that starts at the second of two bars writes outside the arrays. -/
theorem C41_out_of_bounds : ∃ (bars : List (FpBar ℚ)) (startTs endTs : Int),
    volumeProfileDeveloping (fun x => x.floor) id bars startTs endTs none 70 = .error "out of bounds" :=
  ⟨[⟨0, 10, 10, [10], [1], [1]⟩, ⟨1, 10, 10, [10], [1], [1]⟩], 1, 1, by decide +kernel⟩

/-- Partial version of the property: for queries that start at or before the first bar and select a bar, every output
position is filled with the profile of the bars so far. -/
theorem C41_filled_from_start_partial (rnd : K → Int) (r8 : K → K) (bars : List (FpBar K)) (startTs endTs : Int)
    (nBins : Option Int) (pct : K) (hs : (bars.map FpBar.ts).Pairwise (· ≤ ·))
    (h0 : ∀ b ∈ bars, startTs ≤ b.ts) (hne : ∃ b ∈ bars, b.ts ≤ endTs) :
    ∃ out, volumeProfileDeveloping rnd r8 bars startTs endTs nBins pct = .ok out ∧
      out.length = (bars.filter (fun b => decide (b.ts ≤ endTs))).length ∧
      ∀ k, k < out.length → out[k]? = some (developingAt rnd r8 (bars.filter (fun b => decide (b.ts ≤ endTs))) nBins pct k) := by
  obtain ⟨out, hout, h⟩ := developingFill_from_start rnd r8 bars startTs endTs nBins pct hs h0
  refine ⟨out, ?_, h⟩
  obtain ⟨b, hb, hbe⟩ := hne
  unfold volumeProfileDeveloping
  simp only []
  rw [if_neg (fun he => (devRange_empty_iff bars startTs endTs hs).mp he b hb ⟨h0 b hb, hbe⟩), hout]

example : volumeProfileDeveloping (fun x : ℚ => x.floor) id
    [⟨0, 10, 10, [10], [1], [1]⟩, ⟨1, 11, 10, [10, 11], [1, 5], [1, 0]⟩] 0 1 none 70
      = .ok [.ok (10, 10, 10), .ok (11, 11, 10)] := by decide +kernel

example : volumeProfileDeveloping (fun x : ℚ => x.floor) id
    [⟨0, 10, 10, [10], [1], [1]⟩, ⟨4, 11, 10, [10, 11], [1, 5], [1, 0]⟩] 1 3 none 70 = .error "empty range" := by
  decide +kernel

/-- Trimming cuts off exactly the outer levels whose rounded volume is zero: what is kept is contiguous, carries all of
the rounded volume, and starts and ends with a level that traded. -/
theorem C41_trim (r8 : K → K) (levels : List Int) (vols : List K) (hl : levels.length = vols.length) :
    ∃ (a b : Nat) (m : List K), (trimZeros r8 levels vols).2 = m ∧
      vols.map r8 = List.replicate a 0 ++ m ++ List.replicate b 0 ∧
      (trimZeros r8 levels vols).1 = (levels.drop a).take m.length ∧
      m.head? ≠ some 0 ∧ m.getLast? ≠ some 0 ∧ (m = [] → b = 0) := by
  set z := levels.zip (vols.map r8) with hz
  have hfst : z.map Prod.fst = levels := List.map_fst_zip (by rw [List.length_map]; omega)
  have hsnd : z.map Prod.snd = vols.map r8 := List.map_snd_zip (by rw [List.length_map]; omega)
  set f : Int × K → Bool := fun p => decide (p.2 = 0) with hf
  set d := z.dropWhile f with hd
  set kept := (d.reverse.dropWhile f).reverse with hk
  have hzd : z = z.takeWhile f ++ d := (List.takeWhile_append_dropWhile).symm
  have hdk : d = kept ++ (d.reverse.takeWhile f).reverse := by
    rw [hk, ← List.reverse_append, List.takeWhile_append_dropWhile, List.reverse_reverse]
  have hzero : ∀ l : List (Int × K), (l.takeWhile f).map Prod.snd = List.replicate (l.takeWhile f).length 0 := by
    intro l
    rw [List.eq_replicate_iff]
    refine ⟨List.length_map _, ?_⟩
    intro x hx
    obtain ⟨y, hy, rfl⟩ := List.mem_map.mp hx
    have := List.mem_takeWhile_imp hy
    simpa [hf] using this
  have hhead : ∀ (l : List (Int × K)) (x : Int × K), (l.dropWhile f).head? = some x → x.2 ≠ 0 := by
    intro l x hx
    have := List.head?_dropWhile_not f l
    rw [hx] at this
    simpa [hf] using this
  have h1 : (trimZeros r8 levels vols).1 = kept.map Prod.fst := rfl
  have h2 : (trimZeros r8 levels vols).2 = kept.map Prod.snd := rfl
  refine ⟨(z.takeWhile f).length, (d.reverse.takeWhile f).length, kept.map Prod.snd, h2, ?_, ?_, ?_, ?_, ?_⟩
  · have e1 := congrArg (List.map Prod.snd) hzd
    have e2 := congrArg (List.map Prod.snd) hdk
    rw [List.map_append, hzero, hsnd] at e1
    rw [List.map_append, List.map_reverse (l := d.reverse.takeWhile f), hzero, List.reverse_replicate] at e2
    rw [e1, e2, List.append_assoc]
  · have e1 := congrArg (List.map Prod.fst) hzd
    have e2 := congrArg (List.map Prod.fst) hdk
    rw [List.map_append, hfst] at e1
    rw [List.map_append] at e2
    have e3 : levels.drop (z.takeWhile f).length = d.map Prod.fst := by
      conv_lhs => rw [e1]
      exact List.drop_left' (List.length_map _)
    rw [h1, e3, e2]
    exact (List.take_left' (by simp)).symm
  · intro h
    rw [List.head?_map] at h
    cases hkk : kept with
    | nil => rw [hkk] at h; simp at h
    | cons x l =>
      rw [hkk] at h
      refine hhead z x ?_ (by simpa using h)
      rw [← hd, hdk, hkk]; rfl
  · intro h
    rw [List.getLast?_map, hk, List.getLast?_reverse] at h
    cases hx : (d.reverse.dropWhile f).head? with
    | none => rw [hx] at h; simp at h
    | some x =>
      rw [hx] at h
      exact hhead _ x hx (by simpa using h)
  · intro h
    have hkn : kept = [] := by simpa using h
    rw [hkn, List.nil_append] at hdk
    cases hdd : d with
    | nil => simp
    | cons x l =>
      exfalso
      refine hhead z x (by rw [← hd, hdd]; rfl) ?_
      have hm : x ∈ (d.reverse.takeWhile f).reverse := by rw [← hdk, hdd]; simp
      have := List.mem_takeWhile_imp (List.mem_reverse.mp hm)
      simpa [hf] using this

example : trimZeros id [5, 6, 0, 8, 9] [0, 1, 0, 2, (0 : ℚ)] = ([6, 0, 8], [1, 0, 2]) := by decide +kernel

/-- The developing value at offset `k` (without bucketing) is the value area of the per-tick volumes of the first
`k + 1` selected bars on the tick grid of the whole range. -/
theorem C41_developing_is_cumulative (rnd : K → Int) (hmono : Monotone rnd) (r8 : K → K) (sel : List (FpBar K))
    (hne : sel ≠ []) (hwf : ∀ b ∈ sel, WellFormedBar (rnd b.low) (rnd b.high) b) (pct : K) (k : Nat) :
    ∃ (lo hi : Int) (total : List K), (∀ b ∈ sel, lo ≤ rnd b.low ∧ rnd b.high ≤ hi) ∧
      total.length = (arange lo (hi + 1) 1).length ∧
      (∀ j : Nat, j < total.length → total[j]? = some
        ((sel.take (k + 1)).map (fun b => volumeAt b.levels b.buy (lo + j) + volumeAt b.levels b.sell (lo + j))).sum) ∧
      developingAt rnd r8 sel none pct k = .ok (compPocHvaLva (arange lo (hi + 1) 1) total pct) := by
  have hl := npMin_spec (sel.map FpBar.low) (by simpa using hne)
  have hh := npMax_spec (sel.map FpBar.high) (by simpa using hne)
  have hlo : ∀ b ∈ sel, rnd (npMin (sel.map FpBar.low)) ≤ rnd b.low := fun b hb =>
    hmono (hl.2 _ (List.mem_map_of_mem hb))
  have hhi : ∀ b ∈ sel, rnd b.high ≤ rnd (npMax (sel.map FpBar.high)) := fun b hb =>
    hmono (hh.2 _ (List.mem_map_of_mem hb))
  unfold developingAt tickGrid
  simp only []
  generalize rnd (npMin (sel.map FpBar.low)) = lo at *
  generalize rnd (npMax (sel.map FpBar.high)) = hi at *
  have hwf' : ∀ b ∈ sel.take (k + 1), WellFormedBar lo hi b := by
    intro b hb
    have hb' := List.mem_of_mem_take hb
    obtain ⟨w1, w2, w3, w4⟩ := hwf b hb'
    exact ⟨w1, w2, w3, fun p hp => ⟨le_trans (hlo b hb') (w4 p hp).1, le_trans (w4 p hp).2 (hhi b hb')⟩⟩
  obtain ⟨i1, i2, i3⟩ := alignFold_spec lo hi (sel.take (k + 1)) (List.replicate (arange lo (hi + 1) 1).length 0,
    List.replicate (arange lo (hi + 1) 1).length 0) (by simp) (by simp) hwf'
  refine ⟨lo, hi, _, fun b hb => ⟨hlo b hb, hhi b hb⟩, ?_, ?_, rfl⟩
  · rw [List.length_zipWith, i1, i2, min_self]
  · intro j hj
    rw [List.length_zipWith, i1, i2, min_self] at hj
    obtain ⟨j1, j2⟩ := i3 j hj
    rw [List.getElem?_zipWith, j1, j2, List.getD_eq_getElem _ _ (by simpa using hj), List.getElem_replicate]
    simp only [zero_add, Option.some.injEq]
    induction sel.take (k + 1) with
    | nil => simp
    | cons b t ih => simp only [List.map_cons, List.sum_cons, ← ih]; ring

/-! ### C57 -/

/-- The rolling profile at bar `i` is the profile of exactly the bars with timestamp in `[ts_i - w, ts_i]`; bars
earlier than `ts_0 + w` get zeros. -/
theorem C57_rolling_exact (rnd : K → Int) (bars : List (FpBar K)) (w : Int) (nBins : Option Int) (pct : K)
    (hs : (bars.map FpBar.ts).Pairwise (· ≤ ·)) (hw : 0 ≤ w) (i : Nat) (hi : i < bars.length) :
    (volumeProfileRolling rnd bars w nBins pct)[i]? = some
      (if bars[i].ts < (bars[0]'(by omega)).ts + w then .ok ⟨0, 0, 0, 0⟩
       else
        let a := alignBars rnd (bars.filter (fun b => decide (bars[i].ts - w ≤ b.ts ∧ b.ts ≤ bars[i].ts)))
        profileOf a.1 (List.zipWith (· + ·) a.2.1 a.2.2) nBins pct) := by
  unfold volumeProfileRolling
  simp only []
  rw [tabulate_get?, if_pos hi]
  have hhead : (bars.map FpBar.ts).headD 0 = (bars[0]'(by omega)).ts := by
    cases bars with
    | nil => simp at hi
    | cons b t => rfl
  rw [hhead]
  have hcond : i < searchLeft (bars.map FpBar.ts) ((bars[0]'(by omega)).ts + w) ↔ bars[i].ts < (bars[0]'(by omega)).ts + w := by
    rw [lt_searchLeft hs _ _ (by simpa using hi), List.getElem_map]
  by_cases h : bars[i].ts < (bars[0]'(by omega)).ts + w
  · rw [if_pos h, if_pos (hcond.mpr h)]
  · rw [if_neg h, if_neg (fun c => h (hcond.mp c))]
    unfold rollingAt aggregateFootprint
    have hget : (bars.map FpBar.ts).getD i 0 = bars[i].ts := by
      rw [List.getD_eq_getElem _ _ (by simpa using hi), List.getElem_map]
    simp only []
    rw [hget, C39_window_exact bars _ _ hs ⟨bars[i], List.getElem_mem hi, by omega, le_refl _⟩]
    have hmem : bars[i] ∈ bars.filter (fun b => decide (bars[i].ts - w ≤ b.ts ∧ b.ts ≤ bars[i].ts)) := by
      rw [List.mem_filter]
      exact ⟨List.getElem_mem hi, by simp; omega⟩
    generalize bars.filter (fun b => decide (bars[i].ts - w ≤ b.ts ∧ b.ts ≤ bars[i].ts)) = sel at *
    cases sel with
    | nil => simp at hmem
    | cons b t => rfl

example : volumeProfileRolling (fun x : ℚ => x.floor) [⟨0, 10, 10, [10], [1], [1]⟩, ⟨1, 11, 10, [10, 11], [1, 5], [1, 0]⟩,
    ⟨2, 11, 11, [11], [1], [1]⟩] 1 none 70
      = [.ok ⟨0, 0, 0, 0⟩, .ok ⟨11, 11, 10, 0⟩, .ok ⟨11, 11, 11, 0⟩] := by decide +kernel

/-- With strictly ascending timestamps the value at bar `i` does not depend on later bars. -/
theorem C57_rolling_causal (rnd : K → Int) (bars : List (FpBar K)) (w : Int) (nBins : Option Int) (pct : K)
    (hs : (bars.map FpBar.ts).Pairwise (· < ·)) (hw : 0 ≤ w) (m i : Nat) (him : i < m) (hm : m ≤ bars.length) :
    (volumeProfileRolling rnd (bars.take m) w nBins pct)[i]? = (volumeProfileRolling rnd bars w nBins pct)[i]? := by
  have hs1 : (bars.map FpBar.ts).Pairwise (· ≤ ·) := hs.imp le_of_lt
  have hs2 : ((bars.take m).map FpBar.ts).Pairwise (· ≤ ·) := by
    rw [List.map_take]; exact hs1.sublist (List.take_sublist _ _)
  have hi1 : i < bars.length := by omega
  have hi2 : i < (bars.take m).length := by rw [List.length_take]; omega
  rw [C57_rolling_exact rnd bars w nBins pct hs1 hw i hi1, C57_rolling_exact rnd (bars.take m) w nBins pct hs2 hw i hi2]
  have e1 : (bars.take m)[i] = bars[i] := List.getElem_take
  have e2 : (bars.take m)[0]'(by omega) = bars[0]'(by omega) := List.getElem_take
  have e3 : ∀ p : FpBar K → Bool, (∀ b ∈ bars.drop m, p b = false) → (bars.take m).filter p = bars.filter p := by
    intro p hp
    conv_rhs => rw [← List.take_append_drop m bars]
    have hnil : (bars.drop m).filter p = [] := List.filter_eq_nil_iff.mpr (fun b hb => by simp [hp b hb])
    rw [List.filter_append, hnil, List.append_nil]
  rw [e1, e2, e3]
  intro b hb
  obtain ⟨j, hj, rfl⟩ := List.getElem_of_mem hb
  rw [List.length_drop] at hj
  rw [List.getElem_drop]
  have := List.pairwise_iff_getElem.mp hs i (m + j) (by simpa using hi1) (by simp; omega) (by omega)
  rw [List.getElem_map, List.getElem_map] at this
  simp only [decide_eq_false_iff_not]; omega

example : let b (t : Int) : FpBar ℚ := ⟨t, 2, 1, [1, 2], [1, 1], [0, 3]⟩
    let bars := [b 0, b 10, b 20, b 30]
    (bars.map FpBar.ts).Pairwise (· < ·) ∧
    ((volumeProfileRolling (fun x => Rat.floor x) (bars.take 3) 15 none 70)[2]?.map Except.isOk) = some true := by decide +kernel

/-- Prices are reported as missing exactly when the tick count is 0 — which is how the warm-up is marked. -/
theorem C57_missing_iff_zero (tick : K) (ht : tick ≠ 0) (p : Int) : vpPrice tick p = none ↔ p = 0 := by
  unfold vpPrice
  rw [ite_eq_left_iff]
  constructor
  · intro h
    by_contra hp
    have : (p : K) * tick ≠ 0 := mul_ne_zero (by exact_mod_cast hp) ht
    exact absurd (h this) (by simp)
  · rintro rfl h
    simp at h

example : vpPrice (1 / 10 : ℚ) 0 = none ∧ vpPrice (1 / 10 : ℚ) 55 = some (11 / 2) := by decide +kernel

end FinML

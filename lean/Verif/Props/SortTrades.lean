/-
C18 (sorting and pre-processing) and C48 (integrity report).
`finmlkit/bar/data_model.py:_sort_trades`, `_validate_data`, `_merge_trades`.
-/
import Verif.Props.Merge

set_option linter.unusedSectionVars false

namespace FinML

variable {K : Type} [Field K] [LinearOrder K] [IsStrictOrderedRing K]

/-! ## Specification -/

/-- `f` sorts rows by id (not necessarily stably). -/
def SortsById (f : List (TradeRow K) → List (TradeRow K)) : Prop :=
  ∀ rows, (f rows).Perm rows ∧ (f rows).Pairwise (fun a b => a.id ≤ b.id)

/-! ## Lemmas -/

theorem dropDup_sublist (rows : List (TradeRow K)) (seen : List Int) : (dropDupIds seen rows).Sublist rows := by
  induction rows generalizing seen with
  | nil => simp [dropDupIds]
  | cons r rs ih =>
    unfold dropDupIds
    split_ifs
    · exact (ih seen).cons r
    · exact (ih _).cons_cons r

theorem dropDup_not_seen (rows : List (TradeRow K)) (seen : List Int) :
    ∀ r ∈ dropDupIds seen rows, r.id ∉ seen := by
  induction rows generalizing seen with
  | nil => simp [dropDupIds]
  | cons r rs ih =>
    unfold dropDupIds
    split_ifs with h
    · exact ih seen
    · intro x hx
      rcases List.mem_cons.mp hx with rfl | hx
      · exact h
      · exact fun hm => ih _ x hx (List.mem_cons_of_mem _ hm)

theorem dropDup_nodup (rows : List (TradeRow K)) (seen : List Int) :
    (dropDupIds seen rows).Pairwise (fun a b => a.id ≠ b.id) := by
  induction rows generalizing seen with
  | nil => simp [dropDupIds]
  | cons r rs ih =>
    unfold dropDupIds
    split_ifs with h
    · exact ih seen
    · refine List.pairwise_cons.mpr ⟨?_, ih _⟩
      intro x hx he
      exact dropDup_not_seen rs (r.id :: seen) x hx (by simp [he])

theorem dropDup_ids (rows : List (TradeRow K)) (seen : List Int) (i : Int) :
    (∃ r ∈ dropDupIds seen rows, r.id = i) ↔ (i ∉ seen ∧ ∃ r ∈ rows, r.id = i) := by
  induction rows generalizing seen with
  | nil => simp [dropDupIds]
  | cons r rs ih =>
    unfold dropDupIds
    split_ifs with h
    · rw [ih]
      constructor
      · rintro ⟨h1, x, hx, hxe⟩; exact ⟨h1, x, by simp [hx], hxe⟩
      · rintro ⟨h1, x, hx, hxe⟩
        refine ⟨h1, ?_⟩
        rcases List.mem_cons.mp hx with rfl | hx
        · rw [hxe] at h; exact absurd h h1
        · exact ⟨x, hx, hxe⟩
    · constructor
      · rintro ⟨x, hx, hxe⟩
        rcases List.mem_cons.mp hx with rfl | hx
        · exact ⟨by rw [← hxe]; exact h, x, by simp, hxe⟩
        · obtain ⟨h1, y, hy, hye⟩ := (ih _).mp ⟨x, hx, hxe⟩
          exact ⟨fun hm => h1 (List.mem_cons_of_mem _ hm), y, by simp [hy], hye⟩
      · rintro ⟨h1, x, hx, hxe⟩
        by_cases hr : r.id = i
        · exact ⟨r, by simp, hr⟩
        · rcases List.mem_cons.mp hx with rfl | hx
          · exact absurd hxe hr
          · obtain ⟨y, hy, hye⟩ := (ih (r.id :: seen)).mpr ⟨by
              intro hm
              rcases List.mem_cons.mp hm with h' | h'
              · exact hr h'.symm
              · exact h1 h', x, hx, hxe⟩
            exact ⟨y, by simp [hy], hye⟩

theorem dropDup_id (rows : List (TradeRow K)) (seen : List Int)
    (h : rows.Pairwise (fun a b => a.id ≠ b.id)) (hs : ∀ r ∈ rows, r.id ∉ seen) : dropDupIds seen rows = rows := by
  induction rows generalizing seen with
  | nil => rfl
  | cons r rs ih =>
    unfold dropDupIds
    rw [if_neg (hs r (by simp))]
    rw [List.pairwise_cons] at h
    rw [ih (r.id :: seen) h.2]
    intro x hx hm
    rcases List.mem_cons.mp hm with h' | h'
    · exact h.1 x hx h'.symm
    · exact hs x (by simp [hx]) h'

theorem tsMonotone_iff (l : List (TradeRow K)) : tsMonotone l = true ↔ l.Pairwise (fun a b => a.ts ≤ b.ts) := by
  induction l with
  | nil => simp [tsMonotone]
  | cons a l ih =>
    cases l with
    | nil => simp [tsMonotone]
    | cons b l =>
      unfold tsMonotone
      rw [Bool.and_eq_true, ih]
      constructor
      · rintro ⟨h1, h2⟩
        have h1 : a.ts ≤ b.ts := by simpa using h1
        refine List.pairwise_cons.mpr ⟨?_, h2⟩
        intro x hx
        rcases List.mem_cons.mp hx with rfl | hx
        · exact h1
        · exact le_trans h1 ((List.pairwise_cons.mp h2).1 x hx)
      · intro h
        rw [List.pairwise_cons] at h
        exact ⟨by simpa using h.1 b (by simp), h.2⟩

instance : Std.Total (tsIdLe : TradeRow K → TradeRow K → Prop) := ⟨by
  intro a b; unfold tsIdLe; omega⟩
instance : IsTrans (TradeRow K) tsIdLe := ⟨by
  intro a b c; unfold tsIdLe; omega⟩

/-! ## C18 -/

/-- **C18 (rows).** Whatever (possibly unstable) sort by id is used, the sorted frame is in non-decreasing timestamp
order with ties in id order; it consists of input rows (each with its own price and amount), one for every distinct
id of the input; if the ids are distinct it is a permutation of the input. -/
theorem C18_sort_rows (sortId : List (TradeRow K) → List (TradeRow K)) (hs : SortsById sortId)
    (rows : List (TradeRow K)) :
    let out := sortTrades sortId rows
    out.Pairwise (fun a b => a.ts < b.ts ∨ (a.ts = b.ts ∧ a.id < b.id)) ∧
    out.Subperm rows ∧
    (out.map (·.id)).Nodup ∧ (∀ i, i ∈ out.map (·.id) ↔ i ∈ rows.map (·.id)) ∧
    ((rows.map (·.id)).Nodup → out.Perm rows) := by
  intro out
  obtain ⟨hperm, hsort⟩ := hs rows
  have hsub := dropDup_sublist (sortId rows) []
  have hnd := dropDup_nodup (sortId rows) []
  have hids := dropDup_ids (sortId rows) []
  set d := dropDupIds [] (sortId rows) with hd
  have hlt : d.Pairwise (fun a b => a.id < b.id) := by
    have h1 := hsort.sublist hsub
    refine (h1.and hnd).imp ?_
    rintro a b ⟨h1, h2⟩; omega
  have hout : out.Perm d := by
    show (if tsMonotone d then d else d.insertionSort tsIdLe).Perm d
    split_ifs
    · exact List.Perm.refl _
    · exact List.perm_insertionSort _ _
  have hndout : out.Pairwise (fun a b => a.id ≠ b.id) :=
    (hout.pairwise_iff (fun h => Ne.symm h)).mpr hnd
  refine ⟨?_, ?_, ?_, ?_, ?_⟩
  · show (if tsMonotone d then d else d.insertionSort tsIdLe).Pairwise _
    split_ifs with h
    · have := (tsMonotone_iff d).mp h
      refine (this.and hlt).imp ?_
      rintro a b ⟨h1, h2⟩; omega
    · have h1 := List.pairwise_insertionSort (tsIdLe : TradeRow K → TradeRow K → Prop) d
      have h2 : (d.insertionSort tsIdLe).Pairwise (fun a b => a.id ≠ b.id) :=
        ((List.perm_insertionSort tsIdLe d).pairwise_iff (fun h => Ne.symm h)).mpr hnd
      refine (h1.and h2).imp ?_
      rintro a b ⟨h1, h2⟩
      unfold tsIdLe at h1
      omega
  · exact (hout.subperm.trans hsub.subperm).trans hperm.subperm
  · rw [List.Nodup, List.pairwise_map]
    exact hndout
  · intro i
    have e1 : i ∈ out.map (·.id) ↔ ∃ r ∈ d, r.id = i := by
      rw [List.mem_map]
      constructor
      · rintro ⟨r, hr, he⟩; exact ⟨r, hout.mem_iff.mp hr, he⟩
      · rintro ⟨r, hr, he⟩; exact ⟨r, hout.mem_iff.mpr hr, he⟩
    rw [e1, hids i, List.mem_map]
    constructor
    · rintro ⟨_, r, hr, he⟩; exact ⟨r, hperm.mem_iff.mp hr, he⟩
    · rintro ⟨r, hr, he⟩; exact ⟨by simp, r, hperm.mem_iff.mpr hr, he⟩
  · intro hn
    have hn' : (sortId rows).Pairwise (fun a b => a.id ≠ b.id) := by
      rw [List.Nodup, List.pairwise_map] at hn
      exact (hperm.pairwise_iff (fun h => Ne.symm h)).mpr hn
    have : d = sortId rows := dropDup_id _ _ hn' (by simp)
    rw [this] at hout
    exact hout.trans hperm

/-- **C18 (already ordered data).** If ids are strictly increasing and timestamps non-decreasing, sorting changes
nothing — and only then is the side column (`is_buyer_maker`), which is never permuted, guaranteed to stay attached to
its trades (see `C18_side_detached`). -/
theorem C18_sort_ordered_partial (sortId : List (TradeRow K) → List (TradeRow K)) (hs : SortsById sortId)
    (rows : List (TradeRow K)) (hid : rows.Pairwise (fun a b => a.id < b.id))
    (hts : rows.Pairwise (fun a b => a.ts ≤ b.ts)) :
    sortTrades sortId rows = rows := by
  obtain ⟨hperm, hsort⟩ := hs rows
  have heq : sortId rows = rows := by
    apply hperm.eq_of_pairwise _ hsort (hid.imp (fun h => le_of_lt h))
    intro a b ha hb h1 h2
    have hab : a.id = b.id := le_antisymm h1 h2
    have ha := hperm.mem_iff.mp ha
    obtain ⟨i, hi, rfl⟩ := List.getElem_of_mem ha
    obtain ⟨j, hj, rfl⟩ := List.getElem_of_mem hb
    rcases Nat.lt_trichotomy i j with h | h | h
    · have := List.pairwise_iff_getElem.mp hid i j hi hj h; omega
    · subst h; rfl
    · have := List.pairwise_iff_getElem.mp hid j i hj hi h; omega
  unfold sortTrades
  have hd : dropDupIds [] (sortId rows) = rows := by
    rw [heq]
    exact dropDup_id _ _ (hid.imp (fun h => by omega)) (by simp)
  rw [hd]
  simp only [(tsMonotone_iff rows).mpr hts, if_true]

/-- A concrete sort by id. -/
def sortByIdIns (rows : List (TradeRow K)) : List (TradeRow K) :=
  rows.insertionSort (fun a b => a.id ≤ b.id)

theorem sortByIdIns_sorts : SortsById (sortByIdIns : List (TradeRow K) → _) := by
  intro rows
  let _ : Std.Total (fun a b : TradeRow K => a.id ≤ b.id) := ⟨fun a b => by omega⟩
  let _ : IsTrans (TradeRow K) (fun a b : TradeRow K => a.id ≤ b.id) := ⟨fun a b c => by omega⟩
  exact ⟨List.perm_insertionSort _ _, List.pairwise_insertionSort _ _⟩

/-- **C18 (violation: sides).** Two trades given in reverse id order: trade 1 (price 10) was made by a buyer-maker,
trade 2 (price 20) was not.  After pre-processing the price-10 trade carries side +1 and the price-20 trade side -1:
the sides are swapped, because `is_buyer_maker` is not reordered with the rows. -/
theorem C18_side_detached :
    let rows : List (TradeRow ℚ) := [⟨2, 20, 1, 2⟩, ⟨1, 10, 1, 1⟩]
    let makers := [false, true]
    mergeTrades (1/100000000) (sortTrades sortByIdIns rows) (some makers) = [⟨1, 10, 1, 1⟩, ⟨2, 20, 1, -1⟩] := by
  decide +kernel

/-- **C18 (violation: a given side column is discarded).** The pre-processing pipeline has no access to a supplied
`side` column: `_merge_trades` rebuilds the frame from timestamp, price and amount, so sides are then re-inferred from
prices.  Here the model shows the inferred side of the first trade is always 0. -/
theorem C18_inferred_first_side_zero (tol eps : K) (sortId : List (TradeRow K) → List (TradeRow K)) (u : Option String)
    (pr : Option String) (rows : List (TradeRow K)) (o : OutTrade K) (os : List (OutTrade K))
    (h : preprocess tol eps sortId u pr rows none = .ok (o :: os)) : o.side = 0 := by
  unfold preprocess at h
  simp only at h
  split at h
  · cases h
  · split at h
    · cases h
    · rename_i ts' _
      have h := Except.ok.inj h
      generalize mergeTrades tol _ none = merged at h
      cases merged with
      | nil => simp at h
      | cons m ms =>
        cases ts' with
        | nil => simp at h
        | cons t ts =>
          simp [tradeSideVector] at h
          rw [← h.1]

example : SortsById (sortByIdIns : List (TradeRow ℚ) → _) ∧
    sortTrades sortByIdIns ([⟨5, 20, 1, 2⟩, ⟨7, 10, 1, 1⟩, ⟨5, 20, 9, 2⟩, ⟨6, 3, 1, 4⟩] : List (TradeRow ℚ)) =
      [⟨5, 20, 1, 2⟩, ⟨6, 3, 1, 4⟩, ⟨7, 10, 1, 1⟩] :=
  ⟨sortByIdIns_sorts, by decide +kernel⟩

/-! ## C48 -/

/-- The discontinuities of an id-sorted sequence: consecutive trades with ids missing between them that are more than
one minute apart. -/
def gapsOf (rows : List (TradeRow K)) : List Discontinuity :=
  ((rows.zip rows.tail).filter (fun p => decide (p.2.id > p.1.id + 1 ∧ p.2.ts > p.1.ts + 60000000000))).map
    (fun p => ⟨p.1.id, p.2.id, p.2.id - p.1.id - 1, p.2.ts - p.1.ts⟩)

theorem validateLoop_spec (rows : List (TradeRow K)) (hid : rows.Pairwise (fun a b => a.id < b.id))
    (rep : IntegrityReport) :
    (validateLoop rep rows).discontinuities = rep.discontinuities ++ gapsOf rows ∧
    ∀ a b, rows.head? = some a → rows.getLast? = some b →
      (validateLoop rep rows).cumGap = rep.cumGap + (b.id - a.id + 1 - rows.length) := by
  induction rows generalizing rep with
  | nil => simp [validateLoop, gapsOf]
  | cons a l ih =>
    cases l with
    | nil =>
      refine ⟨by simp [validateLoop, gapsOf], ?_⟩
      intro x y hx hy
      simp at hx hy; subst hx; subst hy
      simp [validateLoop]
    | cons b l =>
      have hab : a.id < b.id := (List.pairwise_cons.mp hid).1 b (by simp)
      have ih := ih (List.pairwise_cons.mp hid).2
      unfold validateLoop
      have hgaps : gapsOf (a :: b :: l) =
          (if b.id > a.id + 1 ∧ b.ts > a.ts + 60000000000 then [⟨a.id, b.id, b.id - a.id - 1, b.ts - a.ts⟩] else []) ++
            gapsOf (b :: l) := by
        unfold gapsOf
        simp only [List.tail_cons, List.zip_cons_cons, List.filter_cons]
        split_ifs with h1 h2 h2
        · simp
        · simp at h1; omega
        · simp at h1; omega
        · simp
      constructor
      · rw [(ih _).1, hgaps, ← List.append_assoc]
        congr 1
        by_cases h1 : b.id - a.id > 1
        · simp only [if_pos h1]
          by_cases h2 : b.ts - a.ts > 60000000000
          · rw [if_pos h2, if_pos (by omega)]
          · rw [if_neg h2, if_neg (by omega), List.append_nil]
        · simp only [if_neg h1]
          rw [if_neg (by omega), List.append_nil]
      · intro x y hx hy
        simp at hx; subst hx
        rw [(ih _).2 b y (by simp) (by simpa using hy)]
        by_cases h1 : b.id - a.id > 1
        · simp only [if_pos h1, List.length_cons]; push_cast; omega
        · simp only [if_neg h1, List.length_cons]; push_cast; omega

/-- **C48.** On rows with strictly increasing ids (what `_sort_trades` passes to the check), the reported percentage is
100 times (number of ids in `[first, last]` that are not present) / (number of trades), and the recorded discontinuities
are exactly the consecutive trades with missing ids between them more than a minute apart, in order. -/
theorem C48_integrity_report (rows : List (TradeRow K))
    (hid : rows.Pairwise (fun a b => a.id < b.id)) :
    (validateLoop ⟨0, []⟩ rows).discontinuities = gapsOf rows ∧
    ∀ a b, rows.head? = some a → rows.getLast? = some b →
      (validateLoop ⟨0, []⟩ rows).cumGap =
        (((List.range (b.id - a.id + 1).toNat).filter
          (fun k : Nat => decide (a.id + (k : Int) ∉ rows.map (·.id)))).length : Int) ∧
      missingPct rows = (((validateLoop ⟨0, []⟩ rows).cumGap : Int) : K) * 100 / (rows.length : K) := by
  obtain ⟨h1, h2⟩ := validateLoop_spec rows hid ⟨0, []⟩
  refine ⟨by simpa using h1, ?_⟩
  intro a b ha hb
  have hcum := h2 a b ha hb
  refine ⟨?_, by unfold missingPct; ring⟩
  rw [hcum]
  -- count the ids present and absent in the range
  have hcount : ∀ (rows : List (TradeRow K)), rows.Pairwise (fun a b => a.id < b.id) → ∀ a b,
      rows.head? = some a → rows.getLast? = some b →
      ((List.range (b.id - a.id + 1).toNat).filter (fun k : Nat => decide (a.id + (k : Int) ∈ rows.map (·.id)))).length =
        rows.length := by
    intro rows hid a b ha hb
    have hnd1 : ((List.range (b.id - a.id + 1).toNat).filter
        (fun k : Nat => decide (a.id + (k : Int) ∈ rows.map (·.id)))).Nodup := List.nodup_range.filter _
    have hnd2 : (rows.map (fun r => (r.id - a.id).toNat)).Nodup := by
      rw [List.Nodup, List.pairwise_map]
      have hge : ∀ r ∈ rows, a.id ≤ r.id := by
        cases rows with
        | nil => simp
        | cons x xs =>
          simp at ha; subst ha
          intro r hr
          rcases List.mem_cons.mp hr with rfl | hr
          · exact le_refl _
          · exact le_of_lt ((List.pairwise_cons.mp hid).1 r hr)
      have := List.Pairwise.and_mem.mp hid
      refine this.imp ?_
      rintro x y ⟨hx, hy, hxy⟩
      have := hge x hx; have := hge y hy
      omega
    have hperm : ((List.range (b.id - a.id + 1).toNat).filter
        (fun k : Nat => decide (a.id + (k : Int) ∈ rows.map (·.id)))).Perm
        (rows.map (fun r => (r.id - a.id).toNat)) := by
      rw [List.perm_ext_iff_of_nodup hnd1 hnd2]
      intro k
      rw [List.mem_filter, List.mem_range]
      have hbd : ∀ r ∈ rows, a.id ≤ r.id ∧ r.id ≤ b.id := by
        intro r hr
        obtain ⟨i, hi, rfl⟩ := List.getElem_of_mem hr
        rw [List.head?_eq_getElem?, List.getElem?_eq_some_iff] at ha
        rw [List.getLast?_eq_getElem?, List.getElem?_eq_some_iff] at hb
        obtain ⟨h0, rfl⟩ := ha
        obtain ⟨hl, rfl⟩ := hb
        constructor
        · rcases Nat.eq_zero_or_pos i with h | h
          · subst h; exact le_refl _
          · exact le_of_lt (List.pairwise_iff_getElem.mp hid 0 i h0 hi h)
        · rcases Nat.lt_or_ge i (rows.length - 1) with h | h
          · exact le_of_lt (List.pairwise_iff_getElem.mp hid i _ hi hl h)
          · have : i = rows.length - 1 := by omega
            subst this; exact le_refl _
      constructor
      · rintro ⟨h1, h2⟩
        have h2 : a.id + (k : Int) ∈ rows.map (·.id) := by simpa using h2
        obtain ⟨r, hr, he⟩ := List.mem_map.mp h2
        exact List.mem_map.mpr ⟨r, hr, by omega⟩
      · intro hk
        obtain ⟨r, hr, rfl⟩ := List.mem_map.mp hk
        have := hbd r hr
        refine ⟨by omega, ?_⟩
        have : a.id + ((r.id - a.id).toNat : Int) = r.id := by omega
        simp only [this]
        simpa using ⟨r, hr, rfl⟩
    rw [hperm.length_eq, List.length_map]
  have hc := hcount rows hid a b ha hb
  have hsplit : ∀ (l : List Nat) (P : Nat → Prop) [DecidablePred P],
      (l.filter (fun k => decide (P k))).length + (l.filter (fun k => decide (¬ P k))).length = l.length := by
    intro l P _
    induction l with
    | nil => rfl
    | cons x l ih =>
      simp only [List.filter_cons]
      by_cases hx : P x
      · simp [hx] at ih ⊢; omega
      · simp [hx] at ih ⊢; omega
  have hsp := hsplit (List.range (b.id - a.id + 1).toNat) (fun k : Nat => a.id + (k : Int) ∈ rows.map (·.id))
  rw [List.length_range] at hsp
  have hle : a.id ≤ b.id := by
    rw [List.head?_eq_getElem?, List.getElem?_eq_some_iff] at ha
    rw [List.getLast?_eq_getElem?, List.getElem?_eq_some_iff] at hb
    obtain ⟨h0, rfl⟩ := ha
    obtain ⟨hl, rfl⟩ := hb
    rcases Nat.eq_zero_or_pos (rows.length - 1) with h | h
    · simp [h]
    · exact le_of_lt (List.pairwise_iff_getElem.mp hid 0 _ h0 hl h)
  rw [hc] at hsp
  simp only
  omega

example : let rows : List (TradeRow ℚ) := [⟨10, 1, 1, 5⟩, ⟨20, 1, 1, 8⟩]
    rows.Pairwise (fun a b => a.id < b.id) ∧ (validateLoop ⟨0, []⟩ rows).cumGap = 2 := by decide +kernel

/-- **C48 (flag).** The data is flagged as not OK exactly when an id is repeated or some missing ids span more than a
minute; ids missing within a minute leave the flag at OK. -/
theorem C48_data_ok (sortId : List (TradeRow K) → List (TradeRow K)) (hs : SortsById sortId) (rows : List (TradeRow K)) :
    dataOk sortId rows = true ↔
      (rows.map (·.id)).Nodup ∧ gapsOf (dropDupIds [] (sortId rows)) = [] := by
  obtain ⟨hperm, hsort⟩ := hs rows
  have hsub := dropDup_sublist (sortId rows) []
  have hnd := dropDup_nodup (sortId rows) []
  have hlt : (dropDupIds [] (sortId rows)).Pairwise (fun a b => a.id < b.id) := by
    have h1 := hsort.sublist hsub
    refine (h1.and hnd).imp ?_
    rintro a b ⟨h1, h2⟩; omega
  have hg := (validateLoop_spec _ hlt ⟨0, []⟩).1
  unfold dataOk
  simp only [Bool.and_eq_true, decide_eq_true_eq, List.isEmpty_iff, hg, List.nil_append]
  apply and_congr_left
  intro _
  constructor
  · intro hl
    have : dropDupIds [] (sortId rows) = sortId rows := hsub.eq_of_length (by rw [hl, hperm.length_eq])
    rw [this] at hnd
    rw [List.Nodup, List.pairwise_map]
    exact (hperm.pairwise_iff (fun h => Ne.symm h)).mp hnd
  · intro hn
    rw [List.Nodup, List.pairwise_map] at hn
    have hn' : (sortId rows).Pairwise (fun a b => a.id ≠ b.id) :=
      (hperm.pairwise_iff (fun h => Ne.symm h)).mpr hn
    rw [dropDup_id _ _ hn' (by simp), hperm.length_eq]

example : validateLoop ⟨0, []⟩ ([⟨0, 1, 1, 1⟩, ⟨5, 1, 1, 2⟩, ⟨90000000000, 1, 1, 6⟩, ⟨90000000001, 1, 1, 9⟩] : List (TradeRow ℚ)) =
    ⟨5, [⟨2, 6, 3, 89999999995⟩]⟩ := by decide +kernel

end FinML

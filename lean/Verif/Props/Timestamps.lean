/-
C19 (timestamp units and resolution) and the end-to-end part of C18.
`finmlkit/bar/data_model.py:TradesData`.
-/
import Verif.Props.SortTrades
import Verif.Props.TradeSide

set_option linter.unusedSectionVars false

namespace FinML

variable {K : Type} [Field K] [LinearOrder K] [IsStrictOrderedRing K]

/-! ## Specification -/

/-- Nanoseconds per unit, for the four units the documentation names. -/
inductive NsPerUnit : String → Int → Prop
  | s : NsPerUnit "s" (10 ^ 9)
  | ms : NsPerUnit "ms" (10 ^ 6)
  | us : NsPerUnit "us" (10 ^ 3)
  | ns : NsPerUnit "ns" 1

/-- A value an `int64` can hold. -/
def IsInt64 (x : Int) : Prop := -(2 ^ 63) ≤ x ∧ x < 2 ^ 63

theorem unitFactor_eq_some (u : String) (f : Int) : unitFactor u = some f ↔ NsPerUnit u f := by
  constructor
  · intro h
    unfold unitFactor at h
    split at h
    · obtain rfl := Option.some.inj h; exact .s
    · obtain rfl := Option.some.inj h; exact .ms
    · obtain rfl := Option.some.inj h; exact .us
    · obtain rfl := Option.some.inj h; exact .ns
    · cases h
  · intro h; cases h <;> rfl

theorem unitFactor_eq_none (u : String) : unitFactor u = none ↔ ∀ f, ¬ NsPerUnit u f := by
  constructor
  · intro h f hf
    rw [(unitFactor_eq_some u f).mpr hf] at h; cases h
  · intro h
    cases hu : unitFactor u with
    | none => rfl
    | some f => exact absurd ((unitFactor_eq_some u f).mp hu) (h f)

theorem NsPerUnit.pos {u : String} {f : Int} (h : NsPerUnit u f) : 0 < f := by cases h <;> norm_num

theorem NsPerUnit.ne_empty {u : String} {f : Int} (h : NsPerUnit u f) : u ≠ "" := by cases h <;> decide

theorem wrap64_of_isInt64 {x : Int} (h : IsInt64 x) : wrap64 x = x := by
  unfold IsInt64 at h
  unfold wrap64
  norm_num at h
  omega

/-! ## C19 -/

/-- **C19 (inference).** The inferred unit is determined by the band of the largest timestamp. -/
theorem C19_infer_unit (m : Int) :
    (inferUnit m = "ns" ↔ 10 ^ 18 < m) ∧ (inferUnit m = "us" ↔ 10 ^ 15 < m ∧ m ≤ 10 ^ 18) ∧
    (inferUnit m = "ms" ↔ 10 ^ 12 < m ∧ m ≤ 10 ^ 15) ∧ (inferUnit m = "s" ↔ m ≤ 10 ^ 12) := by
  unfold inferUnit
  norm_num
  refine ⟨?_, ?_, ?_, ?_⟩ <;> split_ifs <;> simp <;> omega

/-- **C19 (inference is right for modern data).** For any instant from 2001-09-09T01:46:41Z (10^9 + 1 s) up to year 2286
(10^10 s), expressed in any of the four units, inference recovers that unit. -/
theorem C19_infer_recovers (u : String) (f : Int) (hu : NsPerUnit u f) (instant : Int)
    (h1 : (10 ^ 9 + 1) * 10 ^ 9 ≤ instant) (h2 : instant < 10 ^ 10 * 10 ^ 9) : inferUnit (instant / f) = u := by
  norm_num at h1 h2
  unfold inferUnit
  cases hu <;> norm_num <;> split_ifs <;> first | rfl | omega

example : inferUnit (1700000000123456789 / 1000000) = "ms" ∧ (10 ^ 9 + 1) * 10 ^ 9 ≤ (1700000000123456789 : Int) ∧
    (1700000000123456789 : Int) < 10 ^ 10 * 10 ^ 9 := by decide +kernel

/-- **C19 (conversion).** If the products fit in 64 bits, conversion multiplies every timestamp by the unit and keeps
their order strictly; an unknown unit is rejected. -/
theorem C19_convert (u : String) (ts : List Int) :
    (∀ f, NsPerUnit u f → (∀ t ∈ ts, IsInt64 (t * f)) →
      convertToNs u ts = .ok (ts.map (· * f)) ∧ ∀ a b : Int, a < b ↔ a * f < b * f) ∧
    ((∀ f, ¬ NsPerUnit u f) → ∃ e, convertToNs u ts = .error e) := by
  constructor
  · intro f hf hr
    refine ⟨?_, fun a b => (Int.mul_lt_mul_right hf.pos).symm⟩
    unfold convertToNs
    rw [(unitFactor_eq_some u f).mpr hf]
    simp only [Except.ok.injEq]
    exact List.map_congr_left (fun t ht => wrap64_of_isInt64 (hr t ht))
  · intro h
    unfold convertToNs
    rw [(unitFactor_eq_none u).mpr h]
    exact ⟨_, rfl⟩

/-- **C19 (limit).** Outside the 64-bit range the product wraps silently: ten billion seconds (year 2286) becomes a
negative timestamp, so the order is lost. -/
theorem C19_convert_overflow : convertToNs "s" [1, 10000000000] = .ok [1000000000, -8446744073709551616] := by
  decide +kernel

/-- `r` is `t` rounded down to a multiple of `f`. -/
def IsFloorTo (f t r : Int) : Prop := f ∣ r ∧ r ≤ t ∧ t < r + f

/-- **C19 (resolution).** Applying a processing resolution rounds every timestamp down to the enclosing unit; it is
skipped when no resolution or the original unit is given, and an unknown resolution is rejected. -/
theorem C19_resolution (orig : String) (ts : List Int) :
    applyResolution none orig ts = .ok ts ∧ applyResolution (some orig) orig ts = .ok ts ∧
    (∀ r f, NsPerUnit r f → r ≠ orig →
      ∃ out, applyResolution (some r) orig ts = .ok out ∧ List.Forall₂ (IsFloorTo f) ts out) ∧
    (∀ r, r ≠ "" → r ≠ orig → (∀ f, ¬ NsPerUnit r f) → ∃ e, applyResolution (some r) orig ts = .error e) := by
  refine ⟨rfl, by simp [applyResolution], ?_, ?_⟩
  · intro r f hf hne
    have hr : ¬ (r = "" ∨ r = orig) := by
      rintro (h | h)
      · exact hf.ne_empty h
      · exact hne h
    refine ⟨ts.map (fun t => t / f * f), ?_, ?_⟩
    · unfold applyResolution
      simp only [if_neg hr, (unitFactor_eq_some r f).mpr hf]
    · rw [List.forall₂_map_right_iff, List.forall₂_same]
      intro t _
      have := hf.pos
      refine ⟨Dvd.intro_left _ rfl, Int.ediv_mul_le t (by omega), ?_⟩
      have := Int.lt_ediv_add_one_mul_self t hf.pos
      linarith
  · intro r h0 h1 h2
    unfold applyResolution
    simp only [if_neg (by tauto : ¬ (r = "" ∨ r = orig)), (unitFactor_eq_none r).mpr h2]
    exact ⟨_, rfl⟩

/-- **C19 (rounding laws).** Rounding down is a function of the timestamp, idempotent and monotone. -/
theorem C19_floor_laws (f : Int) (hf : 0 < f) (t t' r r' : Int) (h : IsFloorTo f t r) (h' : IsFloorTo f t' r') :
    (t = t' → r = r') ∧ (t ≤ t' → r ≤ r') ∧ IsFloorTo f r r := by
  obtain ⟨⟨a, rfl⟩, h2, h3⟩ := h
  obtain ⟨⟨b, rfl⟩, h2', h3'⟩ := h'
  have key : t ≤ t' → f * a ≤ f * b := by
    intro htt
    have : f * a < f * (b + 1) := by linarith
    have : a < b + 1 := lt_of_mul_lt_mul_left this (le_of_lt hf)
    exact mul_le_mul_of_nonneg_left (by omega) (le_of_lt hf)
  have key' : t' ≤ t → f * b ≤ f * a := by
    intro htt
    have : f * b < f * (a + 1) := by linarith
    have : b < a + 1 := lt_of_mul_lt_mul_left this (le_of_lt hf)
    exact mul_le_mul_of_nonneg_left (by omega) (le_of_lt hf)
  exact ⟨fun h => le_antisymm (key h.le) (key' h.ge), key, ⟨Dvd.intro _ rfl, le_refl _, by omega⟩⟩

example : (0 : Int) < 10 ∧ IsFloorTo 10 37 30 ∧ IsFloorTo 10 41 40 := by
  unfold IsFloorTo
  decide

/-- **C19 (skipping is harmless).** When the resolution equals the original unit the step is skipped; the converted
timestamps are already multiples of that unit, so they are their own rounding. -/
theorem C19_skip_harmless (u : String) (f : Int) (hu : NsPerUnit u f) (t : Int) : IsFloorTo f (t * f) (t * f) :=
  ⟨Dvd.intro_left _ rfl, le_refl _, by have := hu.pos; omega⟩

example : NsPerUnit "ms" (10 ^ 6) ∧ IsInt64 (1700000000000 * 10 ^ 6) ∧
    applyResolution (some "s") "ms" [1700000000123000000] = .ok [1700000000000000000] :=
  ⟨.ms, by unfold IsInt64; norm_num, by decide +kernel⟩

/-! ## C18, end to end -/

theorem isChain_map_floor (ts out : List Int) (f : Int) (hf : 0 < f) (h : List.Forall₂ (IsFloorTo f) ts out)
    (hs : ts.Pairwise (· ≤ ·)) : out.Pairwise (· ≤ ·) := by
  rw [List.pairwise_iff_getElem] at hs ⊢
  intro i j hi hj hij
  have hl := h.length_eq
  have h1 := List.Forall₂.get h (i := i) (by omega) hi
  have h2 := List.Forall₂.get h (i := j) (by omega) hj
  exact (C19_floor_laws f hf _ _ _ _ h1 h2).2.1 (hs i j (by omega) (by omega) hij)

theorem tradeSideVector_length (eps : K) (l : List K) : (tradeSideVector eps l).length = l.length := by
  cases l with
  | nil => rfl
  | cons p ps =>
    have : ∀ (ps : List K) (p : K) (s : Int), (tradeSideLoop eps p s ps).length = ps.length := by
      intro ps
      induction ps with
      | nil => intros; rfl
      | cons x xs ih => intro p s; simp [tradeSideLoop, ih]
    simp [tradeSideVector, this]

/-- The rows of the raw-trade list handed to the merge step, whatever the side information. -/
theorem mergeTrades_isMerge (tol : K) (rows : List (TradeRow K)) (makers : Option (List Bool)) :
    ∃ raw : List (RawTrade K), raw.map (fun r => (r.ts, r.price, r.amount)) =
        rows.map (fun r => (r.ts, r.price, r.amount)) ∧
      IsMergeOf tol makers.isSome raw (mergeTrades tol rows makers) := by
  cases makers with
  | none =>
    exact ⟨rows.map (fun r => ⟨r.ts, r.price, r.amount, false⟩), by simp [Function.comp_def], C17_merge_blocks _ _ _⟩
  | some ms =>
    refine ⟨rows.mapIdx (fun i r => ⟨r.ts, r.price, r.amount, ms.getD i false⟩), ?_, C17_merge_blocks _ _ _⟩
    apply List.ext_getElem
    · simp
    · intro i h1 h2
      simp

/-- **C18 (end to end).** Pre-processing trades with distinct ids, a valid unit (given, not inferred), timestamps whose
nanosecond value fits 64 bits and a valid or absent resolution succeeds; its output is in non-decreasing time order and
carries the total amount of the input. -/
theorem C18_preprocess (tol eps : K) (sortId : List (TradeRow K) → List (TradeRow K)) (hs : SortsById sortId)
    (u : String) (f : Int) (hu : NsPerUnit u f) (procRes : Option String)
    (hp : ∀ r, procRes = some r → ∃ g, NsPerUnit r g)
    (rows : List (TradeRow K)) (makers : Option (List Bool))
    (hids : (rows.map (·.id)).Nodup) (hr : ∀ r ∈ rows, IsInt64 (r.ts * f)) :
    ∃ out, preprocess tol eps sortId (some u) procRes rows makers = .ok out ∧
      out.Pairwise (fun a b => a.ts ≤ b.ts) ∧ (out.map (·.amount)).sum = (rows.map (·.amount)).sum := by
  have hu0 : u ≠ "" := hu.ne_empty
  have hconv : convertToNs u (rows.map (·.ts)) = .ok ((rows.map (·.ts)).map (· * f)) :=
    ((C19_convert u (rows.map (·.ts))).1 f hu (by
      intro t ht
      obtain ⟨r, hr', rfl⟩ := List.mem_map.mp ht
      exact hr r hr')).1
  set rows' := List.zipWith (fun (r : TradeRow K) t => { r with ts := t }) rows ((rows.map (·.ts)).map (· * f)) with hrows'
  have hrows'' : rows' = rows.map (fun r => { r with ts := r.ts * f }) := by
    rw [hrows', List.map_map]
    rw [List.zipWith_map_right]
    apply List.ext_getElem <;> simp
  obtain ⟨hsorted, _, _, _, hperm⟩ := C18_sort_rows sortId hs rows'
  have hperm := hperm (by rw [hrows'']; simpa [Function.comp_def] using hids)
  set srt := sortTrades sortId rows' with hsrt
  obtain ⟨raw, hraw, hm⟩ := mergeTrades_isMerge tol srt makers
  set merged := mergeTrades tol srt makers with hmerged
  have hrawts : raw.Pairwise (fun a b => a.ts ≤ b.ts) := by
    have h1 : (raw.map (·.ts)) = srt.map (·.ts) := by
      have := congrArg (List.map Prod.fst) hraw
      simpa [Function.comp_def] using this
    have h2 : (srt.map (·.ts)).Pairwise (· ≤ ·) := by
      rw [List.pairwise_map]
      exact hsorted.imp (fun h => by omega)
    rw [← h1, List.pairwise_map] at h2
    exact h2
  obtain ⟨hmts, _⟩ := C17_merge_ordered tol _ raw merged hm hrawts
  have hamt : (merged.map (·.amount)).sum = (rows.map (·.amount)).sum := by
    rw [(C17_merge_conserves tol _ raw merged hm).1]
    have h1 : (raw.map (·.amount)) = srt.map (·.amount) := by
      have := congrArg (List.map (fun p => p.2.2)) hraw
      simpa [Function.comp_def] using this
    rw [h1, (hperm.map _).sum_eq, hrows'', List.map_map]
    rfl
  -- resolution
  obtain ⟨ts', hres, hts'sorted, hts'len⟩ : ∃ ts', applyResolution procRes u (merged.map (·.ts)) = .ok ts' ∧
      ts'.Pairwise (· ≤ ·) ∧ ts'.length = merged.length := by
    have hsm : (merged.map (·.ts)).Pairwise (· ≤ ·) := by rw [List.pairwise_map]; exact hmts
    obtain ⟨c1, c2, c3, _⟩ := C19_resolution u (merged.map (·.ts))
    cases procRes with
    | none => exact ⟨_, c1, hsm, by simp⟩
    | some r =>
      obtain ⟨g, hg⟩ := hp r rfl
      by_cases hru : r = u
      · subst hru; exact ⟨_, c2, hsm, by simp⟩
      · obtain ⟨out, ho, hF⟩ := c3 r g hg hru
        exact ⟨out, ho, isChain_map_floor _ _ g hg.pos hF hsm, by rw [← hF.length_eq]; simp⟩
  set sides : List Int := (match makers with
        | some _ => merged.map (·.side)
        | none => tradeSideVector eps (merged.map (·.price))) with hsides
  have hsl : sides.length = merged.length := by
    rw [hsides]
    cases makers with
    | none => simp [tradeSideVector_length]
    | some _ => simp
  refine ⟨List.zipWith (fun (m : MTrade K) (p : Int × Int) => ⟨p.1, m.price, m.amount, p.2⟩) merged (ts'.zip sides), ?_, ?_, ?_⟩
  · unfold preprocess
    simp only [if_neg hu0, hconv, ← hrows', ← hsrt, ← hmerged, hres, hsides]
    cases makers <;> rfl
  · rw [List.pairwise_iff_getElem] at hts'sorted ⊢
    intro i j hi hj hij
    simp only [List.length_zipWith, List.length_zip] at hi hj
    simpa using hts'sorted i j (by omega) (by omega) hij
  · rw [← hamt]
    congr 1
    apply List.ext_getElem
    · simp [hts'len, hsl]
    · intro i h1 h2
      simp

/-- **C18 (stand-alone sort).** `fast_sort_trades`: with any index vector that is a permutation of the positions along
which the timestamps do not decrease, the output columns are the input rows permuted — each trade keeping its own price,
amount and side — in time order. -/
theorem C18_fast_sort (ts : List Int) (px am : List K) (mk : List Bool) (idxs : List Nat)
    (hpx : px.length = ts.length) (ham : am.length = ts.length) (hmk : mk.length = ts.length)
    (hperm : idxs.Perm (List.range ts.length))
    (hsort : idxs.Pairwise (fun i j => ts.getD i 0 ≤ ts.getD j 0)) :
    let out := fastSortTrades idxs ts px am (some mk)
    ∃ mk', out.2.2.2 = some mk' ∧
      (out.1.zip (out.2.1.zip (out.2.2.1.zip mk'))).Perm (ts.zip (px.zip (am.zip mk))) ∧
      out.1.Pairwise (· ≤ ·) := by
  intro out
  refine ⟨_, rfl, ?_, ?_⟩
  · have h1 : out.1.zip (out.2.1.zip (out.2.2.1.zip (idxs.map (fun i => mk.getD i false)))) =
        idxs.map (fun i => (ts.getD i 0, px.getD i 0, am.getD i 0, mk.getD i false)) := by
      apply List.ext_getElem
      · simp [out, fastSortTrades]
      · intro i h1 h2
        simp [out, fastSortTrades]
    have h2 : ts.zip (px.zip (am.zip mk)) =
        (List.range ts.length).map (fun i => (ts.getD i 0, px.getD i 0, am.getD i 0, mk.getD i false)) := by
      apply List.ext_getElem
      · simp; omega
      · intro i h1 h2
        simp at h1
        have e1 : ts[i]?.getD 0 = ts[i] := by rw [List.getElem?_eq_getElem (by omega)]; rfl
        have e2 : px[i]?.getD 0 = px[i] := by rw [List.getElem?_eq_getElem (by omega)]; rfl
        have e3 : am[i]?.getD 0 = am[i] := by rw [List.getElem?_eq_getElem (by omega)]; rfl
        have e4 : mk[i]?.getD false = mk[i] := by rw [List.getElem?_eq_getElem (by omega)]; rfl
        simp [e1, e2, e3, e4]
    rw [h1, h2]
    exact hperm.map _
  · show (idxs.map _).Pairwise _
    rw [List.pairwise_map]
    exact hsort

example : ([1, 0, 2] : List Nat).Perm (List.range 3) ∧ ([1, 0, 2] : List Nat).Pairwise (fun i j => ([5, 3, 9] : List Int).getD i 0 ≤ ([5, 3, 9] : List Int).getD j 0) ∧
    (fastSortTrades [1, 0, 2] [5, 3, 9] ([1, 2, 3] : List ℚ) [4, 5, 6] (some [true, false, true])).1 = [3, 5, 9] := by decide +kernel

/-- **C18/C17 (limit).** Rounding to a coarser resolution happens after merging, so the final frame can still contain
adjacent trades with the same timestamp, price and side. -/
theorem C18_resolution_leaves_mergeable :
    preprocess (1/100000000 : ℚ) (1/1000000000000) sortByIdIns (some "us") (some "ms")
      [⟨1000, 10, 1, 1⟩, ⟨1001, 10, 2, 2⟩] (some [false, false]) =
      .ok [⟨1000000, 10, 1, 1⟩, ⟨1000000, 10, 2, 1⟩] := by
  decide +kernel

example : preprocess (1/100000000 : ℚ) (1/1000000000000) sortByIdIns (some "ms") none
      [⟨7, 11, 1, 3⟩, ⟨5, 10, 1, 1⟩, ⟨5, 10, 2, 2⟩] none =
      .ok [⟨5000000, 10, 3, 0⟩, ⟨7000000, 11, 1, 1⟩] := by
  decide +kernel

end FinML

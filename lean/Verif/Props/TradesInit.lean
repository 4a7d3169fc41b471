/-
C116: constructing `TradesData`: what the arguments do with and without pre-processing, and pre-processing twice
(`finmlkit/bar/data_model.py:121-191`).
-/
import Verif.Model.TradesInit
import Verif.Props.Timestamps
import Verif.Props.Merge

set_option linter.unusedSectionVars false

namespace FinML

variable {K : Type} [Field K] [LinearOrder K] [IsStrictOrderedRing K]

theorem finish_ok_iff (d : Option (List Int)) (ts : List Int) (px am : List K) (s : Option (List Int)) (u : String)
    (o : TradesObj K) :
    finishTrades d ts px am s u = .ok o ↔
      (∀ i, d = some i → i.length = ts.length) ∧ o = ⟨ts, px, am, s, d.getD ts, u⟩ := by
  unfold finishTrades
  cases d with
  | none => simp [eq_comm]
  | some i =>
    by_cases h : i.length = ts.length
    · simp [h, eq_comm]
    · simp [h]

/-- **C116 (without pre-processing).** Exactly the columns of equal length are accepted, and they are stored as they are:
the timestamps are taken for nanoseconds whatever the unit, and maker flags, resolution and ids have no effect. -/
theorem C116_raw (tol eps : K) (sortId : List (TradeRow K) → List (TradeRow K)) (a : TradesArgs K)
    (hp : a.preprocess = false) (o : TradesObj K) :
    tradesInit tol eps sortId a = .ok o ↔
      (a.px.length = a.ts.length ∧ a.qty.length = a.ts.length ∧ (∀ i, a.id = some i → i.length = a.ts.length) ∧
        (∀ s, a.side = some s → s.length = a.ts.length) ∧ (∀ d, a.dtIndex = some d → d.length = a.ts.length)) ∧
      o = ⟨a.ts, a.px, a.qty, a.side, a.dtIndex.getD a.ts, a.unitOf⟩ := by
  have h1 : a.sameLength = true ↔ a.px.length = a.ts.length ∧ a.qty.length = a.ts.length ∧
      (∀ i, a.id = some i → i.length = a.ts.length) := by
    unfold TradesArgs.sameLength
    cases a.id with
    | none => simp
    | some i => simp [and_assoc]
  have h2 : a.sideFits = true ↔ ∀ s, a.side = some s → s.length = a.ts.length := by
    unfold TradesArgs.sideFits
    cases a.side with
    | none => simp
    | some i => simp
  unfold tradesInit
  rw [hp]
  by_cases e1 : a.sameLength = true
  · rw [e1]
    by_cases e2 : a.sideFits = true
    · rw [e2]
      simp only [Bool.not_true, Bool.false_eq_true, if_false]
      rw [finish_ok_iff]
      have q1 := h1.mp e1
      have q2 := h2.mp e2
      constructor
      · rintro ⟨q3, q4⟩; exact ⟨⟨q1.1, q1.2.1, q1.2.2, q2, q3⟩, q4⟩
      · rintro ⟨⟨_, _, _, _, q3⟩, q4⟩; exact ⟨q3, q4⟩
    · have : a.sideFits = false := by simpa using e2
      rw [this]
      simp only [Bool.not_true, Bool.false_eq_true, if_false, Bool.not_false, if_true]
      constructor
      · intro h; cases h
      · rintro ⟨⟨_, _, _, q, _⟩, _⟩; exact absurd (h2.mpr q) e2
  · have : a.sameLength = false := by simpa using e1
    rw [this]
    simp only [Bool.not_false, if_true]
    constructor
    · intro h; cases h
    · rintro ⟨⟨q1, q2, q3, _, _⟩, _⟩; exact absurd (h1.mpr ⟨q1, q2, q3⟩) e1

example : let a : TradesArgs ℚ := ⟨[10, 20], [1, 2], [5, 6], none, none, some [1, -1], none, some "ms", false, none⟩
    a.preprocess = false ∧ tradesInit 1 1 id a = .ok ⟨[10, 20], [1, 2], [5, 6], some [1, -1], [10, 20], "ms"⟩ := by decide +kernel

/-- **C116 (loading).** Passing the columns and the index of an object back, as `load_trades_h5` does, gives the same
columns and index. -/
theorem C116_load_back (tol eps : K) (sortId : List (TradeRow K) → List (TradeRow K)) (o : TradesObj K)
    (h1 : o.price.length = o.ts.length) (h2 : o.amount.length = o.ts.length)
    (h3 : ∀ s, o.side = some s → s.length = o.ts.length) (h4 : o.index.length = o.ts.length) :
    ∃ u, tradesInit tol eps sortId ⟨o.ts, o.price, o.amount, none, none, o.side, some o.index, none, false, none⟩ =
      .ok { o with unit := u } := by
  refine ⟨_, (C116_raw tol eps sortId _ rfl _).mpr ⟨⟨h1, h2, by simp, h3, ?_⟩, rfl⟩⟩
  intro d hd
  cases hd
  exact h4

example : let o : TradesObj ℚ := ⟨[10, 20], [1, 2], [5, 6], some [1, -1], [10, 20], "ms"⟩
    o.price.length = o.ts.length ∧ o.amount.length = o.ts.length ∧ o.index.length = o.ts.length := by decide

/-- **C116 (pre-processing).** The side argument is ignored: any column of the right length gives the same object. -/
theorem C116_side_ignored (tol eps : K) (sortId : List (TradeRow K) → List (TradeRow K)) (a : TradesArgs K)
    (hp : a.preprocess = true) (s : List Int) (hs : s.length = a.ts.length) :
    tradesInit tol eps sortId { a with side := some s } = tradesInit tol eps sortId { a with side := none } := by
  unfold tradesInit
  have h1 : ({ a with side := some s } : TradesArgs K).sideFits = true := by simp [TradesArgs.sideFits, hs]
  have h2 : ({ a with side := none } : TradesArgs K).sideFits = true := rfl
  rw [h1, h2]
  dsimp only
  rw [hp]
  rfl

/-- **C116 (pre-processing).** Success means the ids were given and the pre-processing of the rows succeeded; the object
then holds its result, and a given index must have the length of the result, not of the arguments. -/
theorem C116_preprocessed (tol eps : K) (sortId : List (TradeRow K) → List (TradeRow K)) (a : TradesArgs K)
    (hp : a.preprocess = true) (o : TradesObj K) (h : tradesInit tol eps sortId a = .ok o) :
    ∃ ids out, a.id = some ids ∧
      preprocess tol eps sortId (some a.unitOf) a.procRes (frameRows a.ts a.px a.qty ids) a.maker = .ok out ∧
      (∀ d, a.dtIndex = some d → d.length = out.length) ∧
      o = ⟨out.map (·.ts), out.map (·.price), out.map (·.amount), some (out.map (·.side)),
        a.dtIndex.getD (out.map (·.ts)), a.unitOf⟩ := by
  unfold tradesInit at h
  rw [hp] at h
  split at h
  · cases h
  · split at h
    · cases h
    · simp only [if_true] at h
      cases hid : a.id with
      | none => rw [hid] at h; cases h
      | some ids =>
        rw [hid] at h
        simp only at h
        cases ho : preprocess tol eps sortId (some a.unitOf) a.procRes (frameRows a.ts a.px a.qty ids) a.maker with
        | error e => rw [ho] at h; cases h
        | ok out =>
          rw [ho] at h
          simp only at h
          obtain ⟨q1, q2⟩ := (finish_ok_iff _ _ _ _ _ _ _).mp h
          exact ⟨ids, out, rfl, ho, by simpa using q1, q2⟩

/-! ### Pre-processing twice -/

theorem mergeLoop_noop (tol : K) (ws : Bool) (l : List (RawTrade K)) : ∀ (x : RawTrade K),
    (x :: l).IsChain (fun a b => sameTrade tol ws (MTrade.start ws a) b = false) →
    mergeLoop tol ws (MTrade.start ws x) l = (x :: l).map (MTrade.start ws) := by
  induction l with
  | nil => intro x _; rfl
  | cons y l ih =>
    intro x h
    rw [List.isChain_cons_cons] at h
    rw [mergeLoop, h.1, ih y h.2]
    simp

theorem merge_noop (tol : K) (ws : Bool) (l : List (RawTrade K))
    (h : l.IsChain (fun a b => sameTrade tol ws (MTrade.start ws a) b = false)) :
    mergeSplitTrades tol ws l = l.map (MTrade.start ws) := by
  cases l with
  | nil => rfl
  | cons x l => exact mergeLoop_noop tol ws l x h

theorem wrap64_wrap64 (x : Int) : wrap64 (wrap64 x * 1) = wrap64 x := by
  unfold wrap64
  omega

/-- The maker flags that belong to a side column. -/
def makersOf (out : List (OutTrade K)) : List Bool := out.map (fun o => decide (o.side = -1))

/-- The rows of a pre-processed table with new ids. -/
def asRows (ids : List Int) (out : List (OutTrade K)) : List (TradeRow K) :=
  List.zipWith (fun (o : OutTrade K) i => ⟨o.ts, o.price, o.amount, i⟩) out ids

/-- The side column of the result: the merged sides if there are maker flags, else the tick rule. -/
def sidesOf (eps : K) (makers : Option (List Bool)) (merged : List (MTrade K)) : List Int :=
  match makers with
  | some _ => merged.map (·.side)
  | none => tradeSideVector eps (merged.map (·.price))

/-- What the pre-processing without resolution returns. -/
theorem preprocess_shape (tol eps : K) (sortId : List (TradeRow K) → List (TradeRow K)) (u : String)
    (rows : List (TradeRow K)) (makers : Option (List Bool)) (out : List (OutTrade K)) (hu : u ≠ "")
    (h : preprocess tol eps sortId (some u) none rows makers = .ok out) :
    ∃ f, unitFactor u = some f ∧
      let merged := mergeTrades tol (sortTrades sortId (rows.map (fun r => { r with ts := wrap64 (r.ts * f) }))) makers
      out = List.zipWith (fun (m : MTrade K) s => ⟨m.ts, m.price, m.amount, s⟩) merged
        (sidesOf eps makers merged) := by
  unfold preprocess at h
  simp only [if_neg hu] at h
  unfold convertToNs at h
  cases hf : unitFactor u with
  | none => rw [hf] at h; cases h
  | some f =>
    rw [hf] at h
    refine ⟨f, rfl, ?_⟩
    simp only [applyResolution] at h
    have e : List.zipWith (fun (r : TradeRow K) t => ({ r with ts := t } : TradeRow K)) rows
        ((rows.map (·.ts)).map (fun t => wrap64 (t * f))) = rows.map (fun r => { r with ts := wrap64 (r.ts * f) }) := by
      rw [List.map_map, List.zipWith_map_right]
      apply List.ext_getElem <;> simp
    rw [e] at h
    obtain ⟨merged, hm⟩ : ∃ merged, merged = mergeTrades tol (sortTrades sortId (rows.map (fun r =>
      ({ r with ts := wrap64 (r.ts * f) } : TradeRow K)))) makers := ⟨_, rfl⟩
    rw [← hm] at h
    show out = _
    rw [← hm]
    have h' := Except.ok.inj h
    rw [← h']
    unfold sidesOf
    cases makers with
    | none => apply List.ext_getElem <;> simp
    | some _ => apply List.ext_getElem <;> simp

theorem startsBack (ws : Bool) (merged : List (MTrade K)) (hw : ws = true → ∀ m ∈ merged, m.side = 1 ∨ m.side = -1) :
    (merged.map (fun m => (⟨m.ts, m.price, m.amount, decide (m.side = -1)⟩ : RawTrade K))).map (MTrade.start ws) =
      merged.map (fun m => ⟨m.ts, m.price, m.amount, if ws then m.side else 0⟩) := by
  rw [List.map_map]
  apply List.map_congr_left
  intro m hm
  unfold MTrade.start makerSide
  cases ws with
  | false => rfl
  | true =>
    simp only [Function.comp, if_true]
    rcases hw rfl m hm with h | h <;> simp [h]

/-- **C116 (idempotence).** Pre-processing a pre-processed table again, in nanoseconds, with any increasing ids and the
maker flags of its sides (or none, if there were none), changes nothing.  With a processing resolution this fails, because
rounding comes after merging (`C18_resolution_leaves_mergeable`). -/
theorem C116_idempotent (tol eps : K) (sortId : List (TradeRow K) → List (TradeRow K)) (hs : SortsById sortId)
    (u : String) (hu : u ≠ "") (rows : List (TradeRow K)) (makers : Option (List Bool)) (out : List (OutTrade K))
    (h : preprocess tol eps sortId (some u) none rows makers = .ok out)
    (ids : List Int) (hlen : ids.length = out.length) (hids : ids.Pairwise (· < ·)) :
    preprocess tol eps sortId (some "ns") none (asRows ids out) (makers.map (fun _ => makersOf out)) = .ok out := by
  obtain ⟨f, hf, hout⟩ := preprocess_shape tol eps sortId u rows makers out hu h
  dsimp only at hout
  obtain ⟨srt, hsrt⟩ : ∃ srt, srt = sortTrades sortId (rows.map (fun r =>
    ({ r with ts := wrap64 (r.ts * f) } : TradeRow K))) := ⟨_, rfl⟩
  have hsorted := C18_sort_rows sortId hs (rows.map (fun r => ({ r with ts := wrap64 (r.ts * f) } : TradeRow K)))
  dsimp only at hsorted
  rw [← hsrt] at hsorted hout
  obtain ⟨hso, hsub, -⟩ := hsorted
  obtain ⟨raw, hraw, hm⟩ := mergeTrades_isMerge tol srt makers
  obtain ⟨merged, hmerged⟩ : ∃ merged, merged = mergeTrades tol srt makers := ⟨_, rfl⟩
  rw [← hmerged] at hm hout
  have hrawts : raw.map (·.ts) = srt.map (·.ts) := by
    have := congrArg (List.map Prod.fst) hraw
    simpa [Function.comp_def] using this
  have hrawsorted : raw.Pairwise (fun a b => a.ts ≤ b.ts) := by
    have h2 : (srt.map (·.ts)).Pairwise (· ≤ ·) := by
      rw [List.pairwise_map]
      exact hso.imp (fun h => by omega)
    rw [← hrawts, List.pairwise_map] at h2
    exact h2
  obtain ⟨hmts, hmfrom⟩ := C17_merge_ordered tol _ raw merged hm hrawsorted
  have hmax := C17_merge_maximal tol _ raw merged hm
  have hside : makers.isSome = true → ∀ m ∈ merged, m.side = 1 ∨ m.side = -1 := by
    intro hw m hmem
    obtain ⟨blocks, -, hF, -⟩ := hm
    clear * - hF hw hmem
    induction hF with
    | nil => simp at hmem
    | @cons b m' bs ms hb _ ih =>
      rcases List.mem_cons.mp hmem with rfl | h
      · cases b with
        | nil => exact absurd rfl hb.nonempty
        | cons x xs =>
          have := hb.side hw x (by simp)
          rw [this]
          cases x.maker <;> simp
      · exact ih h
  have hwrap : ∀ m ∈ merged, wrap64 (m.ts * 1) = m.ts := by
    intro m hmem
    obtain ⟨x, hx, e⟩ := hmfrom m hmem
    have : x.ts ∈ srt.map (·.ts) := by rw [← hrawts]; exact List.mem_map_of_mem hx
    obtain ⟨r, hr, e2⟩ := List.mem_map.mp this
    obtain ⟨r0, -, e3⟩ := List.mem_map.mp (hsub.subset hr)
    rw [e, ← e2, ← e3]
    exact wrap64_wrap64 _
  -- the table
  obtain ⟨sides, hsides⟩ : ∃ sides : List Int, sides = sidesOf eps makers merged := ⟨_, rfl⟩
  rw [← hsides] at hout
  have hsl : sides.length = merged.length := by
    rw [hsides]
    unfold sidesOf
    cases makers with
    | none => simp [tradeSideVector_length]
    | some _ => simp
  have hol : out.length = merged.length := by rw [hout]; simp [hsl]
  have hrow : (asRows ids out) = List.zipWith (fun (m : MTrade K) i => ⟨m.ts, m.price, m.amount, i⟩) merged ids := by
    unfold asRows
    rw [hout]
    apply List.ext_getElem
    · simp [hsl]
    · intro i h1 h2
      simp
  obtain ⟨rows2, hrows2⟩ : ∃ r, r = asRows ids out := ⟨_, rfl⟩
  have hl2 : rows2.length = merged.length := by rw [hrows2, hrow]; simp; omega
  have hget : ∀ (i : Nat) (h1 : i < rows2.length) (h2 : i < merged.length) (h3 : i < ids.length),
      rows2[i] = ⟨merged[i].ts, merged[i].price, merged[i].amount, ids[i]⟩ := by
    intro i h1 h2 h3
    simp [hrows2, hrow]
  have hconv : rows2.map (fun r => ({ r with ts := wrap64 (r.ts * 1) } : TradeRow K)) = rows2 := by
    apply List.ext_getElem
    · simp
    · intro i h1 h2
      have q2 : i < merged.length := by omega
      have q3 : i < ids.length := by omega
      rw [List.getElem_map, hget i h2 q2 q3]
      simp only [TradeRow.mk.injEq, and_true]
      exact hwrap _ (List.getElem_mem q2)
  have hsort2 : sortTrades sortId rows2 = rows2 := by
    apply C18_sort_ordered_partial sortId hs
    · rw [List.pairwise_iff_getElem] at hids ⊢
      intro i j hi hj hij
      rw [hget i hi (by omega) (by omega), hget j hj (by omega) (by omega)]
      exact hids i j (by omega) (by omega) hij
    · rw [List.pairwise_iff_getElem] at hmts ⊢
      intro i j hi hj hij
      rw [hget i hi (by omega) (by omega), hget j hj (by omega) (by omega)]
      exact hmts i j (by omega) (by omega) hij
  -- the second merge
  have hmerge2 : ∃ sd : MTrade K → Int, (makers.isSome = true → ∀ m, sd m = m.side) ∧
      mergeTrades tol rows2 (makers.map (fun _ => makersOf out)) = merged.map (fun m => ⟨m.ts, m.price, m.amount, sd m⟩) := by
    cases makers with
    | none =>
      refine ⟨fun _ => 0, by simp, ?_⟩
      have e : rows2.map (fun r => (⟨r.ts, r.price, r.amount, false⟩ : RawTrade K)) =
          merged.map (fun m => ⟨m.ts, m.price, m.amount, false⟩) := by
        apply List.ext_getElem
        · simp [hl2]
        · intro i h1 h2
          simp only [List.length_map] at h1 h2
          simp [hget i h1 h2 (by omega)]
      show mergeSplitTrades tol false (rows2.map _) = _
      rw [e, merge_noop]
      · rw [List.map_map]; rfl
      · rw [List.isChain_map]
        refine hmax.imp ?_
        intro m n hmn
        unfold sameTrade MTrade.start
        simp only [Option.isSome_none, Bool.false_eq_true, false_implies, and_true, not_and, not_lt] at hmn
        simp only [Bool.not_false, Bool.true_or, Bool.and_true, Bool.and_eq_false_iff, decide_eq_false_iff_not, not_lt]
        by_cases ht : n.ts = m.ts
        · exact Or.inr (hmn ht)
        · exact Or.inl ht
    | some ms =>
      refine ⟨fun m => m.side, fun _ _ => rfl, ?_⟩
      have hside' := hside rfl
      have e : rows2.mapIdx (fun i r => (⟨r.ts, r.price, r.amount, (makersOf out).getD i false⟩ : RawTrade K)) =
          merged.map (fun m => ⟨m.ts, m.price, m.amount, decide (m.side = -1)⟩) := by
        apply List.ext_getElem
        · simp [hl2]
        · intro i h1 h2
          simp only [List.length_mapIdx, List.length_map] at h1 h2
          have h3 : i < out.length := by omega
          have ho : out[i].side = merged[i].side := by
            have : sides = merged.map (·.side) := hsides
            simp [hout, this]
          simp [hget i h1 h2 (by omega), makersOf, h3, ho]
      show mergeSplitTrades tol true (rows2.mapIdx _) = _
      rw [e, merge_noop]
      · exact startsBack true merged (fun _ => hside')
      · rw [List.isChain_map]
        have hmax2 : merged.IsChain (fun m n => (m ∈ merged ∧ n ∈ merged) ∧ ¬ (n.ts = m.ts ∧ |n.price - m.price| < tol ∧
            ((some ms).isSome = true → n.side = m.side))) := by
          rw [List.isChain_iff_getElem] at hmax ⊢
          intro i hi
          exact ⟨⟨List.getElem_mem _, List.getElem_mem _⟩, hmax i hi⟩
        refine hmax2.imp ?_
        rintro m n ⟨⟨hmm, hnm⟩, hmn⟩
        unfold sameTrade MTrade.start makerSide
        by_contra hc
        rw [Bool.not_eq_false] at hc
        simp only [if_true, Bool.not_true, Bool.false_or, Bool.and_eq_true, decide_eq_true_eq, beq_iff_eq] at hc
        obtain ⟨⟨c1, c2⟩, c3⟩ := hc
        refine hmn ⟨c1, c2, fun _ => ?_⟩
        rcases hside' m hmm with e1 | e1 <;> rcases hside' n hnm with e2 | e2 <;> rw [e1, e2] at c3 ⊢ <;> simp at c3
  obtain ⟨sd, hsd, hmerge2⟩ := hmerge2
  rw [← hrows2]
  unfold preprocess
  have hns : ("ns" : String) ≠ "" := by decide
  simp only [if_neg hns]
  have hconvert : convertToNs "ns" (rows2.map (·.ts)) = .ok ((rows2.map (·.ts)).map (fun t => wrap64 (t * 1))) := rfl
  rw [hconvert]
  have e : List.zipWith (fun (r : TradeRow K) t => ({ r with ts := t } : TradeRow K)) rows2
      ((rows2.map (·.ts)).map (fun t => wrap64 (t * 1))) = rows2 := by
    rw [List.map_map, List.zipWith_map_right]
    conv_rhs => rw [← hconv]
    apply List.ext_getElem <;> simp
  simp only [e, hsort2, hmerge2, applyResolution]
  congr 1
  cases makers with
  | none =>
    have hs2 : sides = tradeSideVector eps (merged.map (·.price)) := hsides
    conv_rhs => rw [hout, hs2]
    apply List.ext_getElem <;> simp [Function.comp_def]
  | some ms =>
    have hs2 : sides = merged.map (·.side) := hsides
    have hsd' := hsd rfl
    conv_rhs => rw [hout, hs2]
    apply List.ext_getElem <;> simp [hsd']

/-- Without pre-processing a unit in seconds changes nothing: the index starts in 1970. -/
theorem C116_raw_unit_ignored :
    (tradesInit (1/100000000 : ℚ) (1/1000000000000) sortByIdIns
      ⟨[1700000000], [10], [1], none, some [true], none, none, some "s", false, none⟩).toOption =
      some ⟨[1700000000], [10], [1], none, [1700000000], "s"⟩ := by decide +kernel

/-- With pre-processing the given sides are replaced by inferred ones. -/
theorem C116_side_lost :
    (tradesInit (1/100000000 : ℚ) (1/1000000000000) sortByIdIns
      ⟨[5, 7], [10, 11], [1, 1], some [1, 2], none, some [-1, -1], none, some "ns", true, none⟩).toOption =
      some ⟨[5, 7], [10, 11], [1, 1], some [0, 1], [5, 7], "ns"⟩ := by decide +kernel

/- Non-vacuity of C116_idempotent: two split trades are merged once. -/
example : preprocess (1/100000000 : ℚ) (1/1000000000000) sortByIdIns (some "ms") none
      [⟨7, 11, 1, 3⟩, ⟨5, 10, 1, 1⟩, ⟨5, 10, 2, 2⟩] (some [false, true, true]) = .ok [⟨5000000, 10, 1, 1⟩, ⟨5000000, 10, 2, -1⟩, ⟨7000000, 11, 1, -1⟩] ∧
    preprocess (1/100000000 : ℚ) (1/1000000000000) sortByIdIns (some "ns") none
      (asRows [1, 2, 3] [⟨5000000, 10, 1, 1⟩, ⟨5000000, 10, 2, -1⟩, ⟨7000000, 11, 1, -1⟩]) (some [false, true, true]) =
      .ok [⟨5000000, 10, 1, 1⟩, ⟨5000000, 10, 2, -1⟩, ⟨7000000, 11, 1, -1⟩] := by
  decide +kernel

end FinML

/-
C151: the element type of the timestamp column decides what the conversion to nanoseconds leaves in it.
`finmlkit/bar/data_model.py:TradesData`.
-/
import Verif.Model.TimestampWidth
import Verif.Props.FixedWidth
import Verif.Props.Timestamps
import Verif.Props.TradesInit

set_option linter.unusedSectionVars false

namespace FinML

variable {K : Type} [Field K] [LinearOrder K] [IsStrictOrderedRing K]

/-! ## Specification -/

/-- The integers a column of the given type and width can hold. -/
inductive Holds : TsDtype → Nat → Int → Prop
  | sint (b : Nat) (x : Int) : -2 ^ (b - 1) ≤ x → x < 2 ^ (b - 1) → Holds (.sint b) b x
  | uint (b : Nat) (x : Int) : 0 ≤ x → x < 2 ^ b → Holds (.uint b) b x

theorem wrap64_congr (b : Nat) (hb : b ≤ 64) (x : Int) : (2 : Int) ^ b ∣ wrap64 x - x := by
  have h : (18446744073709551616 : Int) ∣ wrap64 x - x := by unfold wrap64; omega
  exact (show (2 : Int) ^ b ∣ 2 ^ 64 from pow_dvd_pow 2 hb).trans (by norm_num; exact h)

theorem store_spec (d : TsDtype) (b : Nat) (hd : d = .sint b ∨ d = .uint b) (h1 : 1 ≤ b) (x : Int) :
    Holds d b (d.store x) ∧ (2 : Int) ^ b ∣ d.store x - x := by
  have hp : (0 : Int) < 2 ^ b := by positivity
  rcases hd with rfl | rfl
  · obtain ⟨a1, a2, ⟨k, hk⟩, _⟩ := storeInt_spec b h1 x
    exact ⟨.sint b _ a1 a2, ⟨k, by show storeInt b x - x = _; rw [hk]; ring⟩⟩
  · refine ⟨.uint b _ (Int.emod_nonneg _ hp.ne') (Int.emod_lt_of_pos _ hp), ?_⟩
    show (2 : Int) ^ b ∣ x % 2 ^ b - x
    exact ⟨-(x / 2 ^ b), by have := Int.emod_add_mul_ediv x (2 ^ b); linarith⟩

/-- Two values of one column that agree modulo its width are equal. -/
theorem Holds.unique {d : TsDtype} {b : Nat} (h1 : 1 ≤ b) {x y : Int} (hx : Holds d b x) (hy : Holds d b y)
    (h : (2 : Int) ^ b ∣ x - y) : x = y := by
  have hp : (0 : Int) < 2 ^ b := by positivity
  have key : ∀ lo : Int, lo ≤ x → x < lo + 2 ^ b → lo ≤ y → y < lo + 2 ^ b → x = y := by
    intro lo a1 a2 a3 a4
    have : x - y = 0 := Int.eq_zero_of_abs_lt_dvd h (by rw [abs_lt]; constructor <;> linarith)
    linarith
  obtain ⟨c, rfl⟩ : ∃ c, b = c + 1 := ⟨b - 1, by omega⟩
  have h2 : (2 : Int) ^ (c + 1) = 2 * 2 ^ c := by ring
  cases hx with
  | sint _ _ a1 a2 =>
    cases hy with
    | sint _ _ a3 a4 =>
      simp only [Nat.add_sub_cancel] at a1 a2 a3 a4
      exact key (-2 ^ c) a1 (by linarith) a3 (by linarith)
  | uint _ _ a1 a2 =>
    cases hy with
    | uint _ _ a3 a4 => exact key 0 a1 (by linarith) a3 (by linarith)

/-! ## C151 -/

/-- **C151 (what is stored).** An integer column of at most 64 bits and a valid unit: the conversion succeeds, and every
element becomes the one number the column can hold that agrees with the nanoseconds modulo the width. -/
theorem C151_stored (d : TsDtype) (b : Nat) (hd : d = .sint b ∨ d = .uint b) (h1 : 1 ≤ b) (h64 : b ≤ 64)
    (u : String) (f : Int) (hu : NsPerUnit u f) (ts : List Int) :
    ∃ out, convertColumn d u ts = .ok out ∧
      List.Forall₂ (fun t r => Holds d b r ∧ (2 : Int) ^ b ∣ r - t * f) ts out := by
  have hne : d ≠ .float := by rcases hd with rfl | rfl <;> simp
  refine ⟨(ts.map (fun t => wrap64 (t * f))).map d.store, ?_, ?_⟩
  · simp only [convertColumn, convertToNs, (unitFactor_eq_some u f).mpr hu, if_neg hne]
  · rw [List.map_map, List.forall₂_map_right_iff, List.forall₂_same]
    intro t _
    obtain ⟨a, c⟩ := store_spec d b hd h1 (wrap64 (t * f))
    refine ⟨a, ?_⟩
    have := dvd_add c (wrap64_congr b h64 (t * f))
    simpa using this

example : convertColumn (.sint 32) "s" [1, 1700000000] = .ok [1000000000, 908722176] := by decide +kernel

/-- **C151 (exactness).** An element is right exactly when its nanoseconds fit the column. -/
theorem C151_exact (d : TsDtype) (b : Nat) (h1 : 1 ≤ b) (t f r : Int)
    (h : Holds d b r ∧ (2 : Int) ^ b ∣ r - t * f) : r = t * f ↔ Holds d b (t * f) :=
  ⟨fun e => e ▸ h.1, fun hh => h.1.unique h1 hh h.2⟩

example : Holds (.sint 32) 32 2000000000 ∧ (2 : Int) ^ 32 ∣ 2000000000 - 2 * 10 ^ 9 :=
  ⟨.sint 32 _ (by norm_num) (by norm_num), by norm_num⟩

/-- **C151 (64 bits).** On an `int64` column this is the pipeline of C18, C19 and C116. -/
theorem C151_int64 (tol eps : K) (sortId : List (TradeRow K) → List (TradeRow K)) (u : String) (hu : u ≠ "")
    (procRes : Option String) (rows : List (TradeRow K)) (makers : Option (List Bool)) :
    preprocessTyped tol eps sortId (.sint 64) u procRes rows makers =
      preprocess tol eps sortId (some u) procRes rows makers := by
  have h : ∀ ts, convertColumn (.sint 64) u ts = convertToNs u ts := by
    intro ts
    unfold convertColumn convertToNs
    cases unitFactor u with
    | none => rfl
    | some f =>
      simp only [reduceCtorEq, if_false, List.map_map]
      congr 1
      apply List.map_congr_left
      intro t _
      show storeInt 64 (wrap64 (t * f)) = wrap64 (t * f)
      refine (storeInt_spec 64 (by norm_num) _).2.2.2.mpr ?_
      unfold wrap64
      norm_num
      omega
  unfold preprocessTyped preprocess
  simp only [if_neg hu, h]
  cases convertToNs u (rows.map (·.ts)) <;> cases makers <;> rfl

/-- **C151 (floats).** A float column is refused with a type error by the pre-processing, whatever the unit, the rows and
the other arguments (an unknown unit is reported first). -/
theorem C151_float (tol eps : K) (sortId : List (TradeRow K) → List (TradeRow K)) (u : String)
    (procRes : Option String) (rows : List (TradeRow K)) (makers : Option (List Bool)) :
    ∃ e, preprocessTyped tol eps sortId .float u procRes rows makers = .error e := by
  unfold preprocessTyped convertColumn convertToNs
  cases unitFactor u with
  | none => exact ⟨_, rfl⟩
  | some f => exact ⟨_, rfl⟩

/-- The stored value of a second in a 32-bit column, by C151 (what is stored). -/
def StoredSecond (t r : Int) : Prop := -2147483648 ≤ r ∧ r < 2147483648 ∧ (4294967296 : Int) ∣ r - t * 1000000000

theorem storedSecond_of (t r : Int) (h : Holds (.sint 32) 32 r ∧ (2 : Int) ^ 32 ∣ r - t * 10 ^ 9) : StoredSecond t r := by
  obtain ⟨h1, h2⟩ := h
  cases h1 with
  | sint _ _ a1 a2 =>
    norm_num at a1 a2 h2
    exact ⟨a1, a2, h2⟩

/-- **C151 (seconds in 32 bits).** A column of Unix seconds in `int32` becomes a column of multiples of 512 within 2.15 s
of the epoch; only the seconds from -2 to 2 survive. -/
theorem C151_seconds32 (ts : List Int) :
    ∃ out, convertColumn (.sint 32) "s" ts = .ok out ∧ List.Forall₂ StoredSecond ts out ∧
      ∀ t r, StoredSecond t r → (512 : Int) ∣ r ∧ (r = t * 10 ^ 9 ↔ -2 ≤ t ∧ t ≤ 2) := by
  obtain ⟨out, h, hF⟩ := C151_stored (.sint 32) 32 (.inl rfl) (by norm_num) (by norm_num) "s" _ .s ts
  refine ⟨out, h, hF.imp (fun t r h => storedSecond_of t r h), ?_⟩
  intro t r ⟨h1, h2, h3⟩
  norm_num
  constructor
  · omega
  · omega

/-- **C151 (collisions).** Two seconds are stored as the same timestamp exactly when they differ by a multiple of `2^23`
seconds (97 days). -/
theorem C151_collide32 (t t' r r' : Int) (h : StoredSecond t r) (h' : StoredSecond t' r') :
    r = r' ↔ (8388608 : Int) ∣ t - t' := by
  obtain ⟨h1, h2, h3⟩ := h
  obtain ⟨h1', h2', h3'⟩ := h'
  constructor
  · rintro rfl
    have hd : (4294967296 : Int) ∣ 512 * (1953125 * (t - t')) := by
      have := dvd_sub h3' h3
      have e : r - t' * 1000000000 - (r - t * 1000000000) = 512 * (1953125 * (t - t')) := by ring
      rwa [e] at this
    have hd' : (8388608 : Int) ∣ 1953125 * (t - t') :=
      Int.dvd_of_mul_dvd_mul_left (a := 512) (by norm_num) (by norm_num; exact hd)
    obtain ⟨k, hk⟩ := hd'
    exact ⟨3054701 * k - 711228 * (t - t'), by linarith⟩
  · rintro ⟨k, hk⟩
    have hd : (4294967296 : Int) ∣ r - r' := by
      have e : r - r' = (r - t * 1000000000) - (r' - t' * 1000000000) + 4294967296 * (1953125 * k) := by
        have : t = t' + 8388608 * k := by linarith
        subst this; ring
      rw [e]
      exact dvd_add (dvd_sub h3 h3') (dvd_mul_right _ _)
    have : r - r' = 0 := Int.eq_zero_of_abs_lt_dvd hd (by rw [abs_lt]; constructor <;> linarith)
    linarith

/-- **C151 (order).** Of six consecutive seconds at least two neighbours are stored in the wrong order. -/
theorem C151_order32 (t : Int) (r : Nat → Int) (h : ∀ i : Nat, i < 6 → StoredSecond (t + i) (r i)) :
    ∃ i, i < 5 ∧ r (i + 1) < r i := by
  by_contra hc
  push Not at hc
  have h0 := h 0 (by norm_num); have h1 := h 1 (by norm_num); have h2 := h 2 (by norm_num)
  have h3 := h 3 (by norm_num); have h4 := h 4 (by norm_num); have h5 := h 5 (by norm_num)
  have c0 := hc 0 (by norm_num); have c1 := hc 1 (by norm_num); have c2 := hc 2 (by norm_num)
  have c3 := hc 3 (by norm_num); have c4 := hc 4 (by norm_num)
  simp only [StoredSecond] at h0 h1 h2 h3 h4 h5
  norm_num at h0 h1 h2 h3 h4 h5 c0 c1 c2 c3 c4
  omega

example : StoredSecond 1700000000 (908722176) ∧ StoredSecond (1700000000 + 8388608) (908722176) ∧
    StoredSecond 1700000002 (-1386245120) := by
  refine ⟨⟨?_, ?_, ?_⟩, ⟨?_, ?_, ?_⟩, ⟨?_, ?_, ?_⟩⟩ <;> norm_num

example : ∀ i : Nat, i < 6 → StoredSecond (1700000000 + i)
    (([908722176, 1908722176, -1386245120, -386245120, 613754880, 1613754880] : List Int).getD i 0) := by
  intro i hi
  rcases (by omega : i = 0 ∨ i = 1 ∨ i = 2 ∨ i = 3 ∨ i = 4 ∨ i = 5) with rfl | rfl | rfl | rfl | rfl | rfl <;>
    refine ⟨?_, ?_, ?_⟩ <;> norm_num

/-- Every timestamp of the finished frame comes from the converted column. -/
theorem preprocessTyped_ts (tol eps : K) (sortId : List (TradeRow K) → List (TradeRow K)) (hs : SortsById sortId)
    (d : TsDtype) (u : String) (rows : List (TradeRow K)) (makers : Option (List Bool)) (out : List (OutTrade K))
    (h : preprocessTyped tol eps sortId d u none rows makers = .ok out) :
    ∃ ts, convertColumn d u (rows.map (·.ts)) = .ok ts ∧ ∀ o ∈ out, o.ts ∈ ts := by
  unfold preprocessTyped at h
  cases hc : convertColumn d u (rows.map (·.ts)) with
  | error e => rw [hc] at h; cases h
  | ok ts =>
    refine ⟨ts, rfl, fun o ho => ?_⟩
    rw [hc] at h
    simp only [applyResolution, Except.ok.injEq] at h
    subst h
    set rows' := List.zipWith (fun (r : TradeRow K) t => { r with ts := t }) rows ts with hrows'
    obtain ⟨hsorted, hsub, _⟩ := C18_sort_rows sortId hs rows'
    obtain ⟨raw, hraw, hm⟩ := mergeTrades_isMerge tol (sortTrades sortId rows') makers
    have hrt : raw.map (·.ts) = (sortTrades sortId rows').map (·.ts) := by
      have := congrArg (List.map Prod.fst) hraw
      simpa [Function.comp_def] using this
    have hrawts : raw.Pairwise (fun a b => a.ts ≤ b.ts) := by
      have h2 : ((sortTrades sortId rows').map (·.ts)).Pairwise (· ≤ ·) := by
        rw [List.pairwise_map]
        exact hsorted.imp (fun h => by omega)
      rw [← hrt, List.pairwise_map] at h2
      exact h2
    obtain ⟨_, hmem⟩ := C17_merge_ordered tol _ raw _ hm hrawts
    obtain ⟨i, hi, rfl⟩ := List.mem_iff_getElem.mp ho
    simp only [List.length_zipWith, List.length_zip, List.length_map] at hi
    simp only [List.getElem_zipWith, List.getElem_zip, List.getElem_map]
    obtain ⟨x, hx, e⟩ := hmem _ (List.getElem_mem (show i < _ by omega))
    rw [e]
    have hx' : x.ts ∈ (sortTrades sortId rows').map (·.ts) := hrt ▸ List.mem_map_of_mem hx
    obtain ⟨y, hy, e'⟩ := List.mem_map.mp hx'
    rw [← e']
    have hy' : y ∈ rows' := hsub.subset hy
    rw [hrows'] at hy'
    obtain ⟨j, hj, rfl⟩ := List.mem_iff_getElem.mp hy'
    simp

/-- **C151 (the frame).** Whatever the unit, the trades, their ids and the side information: pre-processing an `int32`
timestamp column dates every trade of the resulting frame within 2.15 s of 1970-01-01. -/
theorem C151_frame32 (tol eps : K) (sortId : List (TradeRow K) → List (TradeRow K)) (hs : SortsById sortId)
    (u : String) (rows : List (TradeRow K)) (makers : Option (List Bool)) (out : List (OutTrade K))
    (h : preprocessTyped tol eps sortId (.sint 32) u none rows makers = .ok out) :
    ∀ o ∈ out, -2147483648 ≤ o.ts ∧ o.ts < 2147483648 := by
  obtain ⟨ts, hc, hts⟩ := preprocessTyped_ts tol eps sortId hs _ u rows makers out h
  intro o ho
  have hm := hts o ho
  unfold convertColumn at hc
  cases hn : convertToNs u (rows.map (·.ts)) with
  | error e => rw [hn] at hc; cases hc
  | ok l =>
    rw [hn] at hc
    simp only [reduceCtorEq, if_false, Except.ok.injEq] at hc
    subst hc
    obtain ⟨x, _, e⟩ := List.mem_map.mp hm
    have := storeInt_spec 32 (by norm_num) x
    rw [← e]
    show -2147483648 ≤ storeInt 32 x ∧ storeInt 32 x < 2147483648
    norm_num at this
    exact ⟨this.1, this.2.1⟩

/-- **C151 (witness).** Three trades, one per second from 2023-11-14 22:13:20, in `int32` and in `int64`: in the first the
trades are reordered. -/
theorem C151_witness :
    (preprocessTyped (1/100000000 : ℚ) (1/1000000000000) sortByIdIns (.sint 32) "s" none
      [⟨1700000000, 10, 1, 1⟩, ⟨1700000001, 11, 1, 2⟩, ⟨1700000002, 12, 1, 3⟩] (some [false, false, false])).toOption =
      some [⟨-1386245120, 12, 1, 1⟩, ⟨908722176, 10, 1, 1⟩, ⟨1908722176, 11, 1, 1⟩] ∧
    (preprocessTyped (1/100000000 : ℚ) (1/1000000000000) sortByIdIns (.sint 64) "s" none
      [⟨1700000000, 10, 1, 1⟩, ⟨1700000001, 11, 1, 2⟩, ⟨1700000002, 12, 1, 3⟩] (some [false, false, false])).toOption =
      some [⟨1700000000000000000, 10, 1, 1⟩, ⟨1700000001000000000, 11, 1, 1⟩, ⟨1700000002000000000, 12, 1, 1⟩] := by
  decide +kernel

end FinML

/-
C154: the time-based transforms take the integers of the index as nanoseconds, whatever unit the index has.
-/
import Verif.Model.IndexUnit
import Mathlib.Tactic.Ring
import Mathlib.Tactic.FieldSimp
import Mathlib.Tactic.Linarith
import Mathlib.Tactic.NormNum

set_option linter.unusedSectionVars false

namespace FinML

variable {K : Type} [Field K] [LinearOrder K] [IsStrictOrderedRing K]

theorem nanos_pos (u : IndexUnit) : 0 < u.nanos := by cases u <;> decide

/-- A search does not notice that both sides are counted in smaller units. -/
theorem searchRight_scale (p : Int) (hp : 0 < p) (ts : List Int) (v : Int) :
    searchRight (ts.map (· * p)) (v * p) = searchRight ts v := by
  unfold searchRight
  induction ts with
  | nil => rfl
  | cons t ts ih =>
    have h : (t * p ≤ v * p) ↔ (t ≤ v) := ⟨fun h => le_of_mul_le_mul_right h hp, fun h => mul_le_mul_of_nonneg_right h hp.le⟩
    simp only [List.map_cons, List.takeWhile_cons, h]
    by_cases hc : t ≤ v
    · simp [hc, ih]
    · simp [hc]

/-- The same for the search from the left. -/
theorem searchLeft_scale (p : Int) (hp : 0 < p) (ts : List Int) (v : Int) :
    searchLeft (ts.map (· * p)) (v * p) = searchLeft ts v := by
  unfold searchLeft
  induction ts with
  | nil => rfl
  | cons t ts ih =>
    have h : (t * p < v * p) ↔ (t < v) := ⟨fun h => lt_of_mul_lt_mul_right h hp.le, fun h => mul_lt_mul_of_pos_right h hp⟩
    simp only [List.map_cons, List.takeWhile_cons, h]
    by_cases hc : t < v
    · simp [hc, ih]
    · simp [hc]

theorem getD_scale (p : Int) (ts : List Int) (i : Nat) : (ts.map (· * p)).getD i 0 = ts.getD i 0 * p := by
  simp only [List.getD_eq_getElem?_getD, List.getElem?_map]
  cases ts[i]? <;> simp

/-- The timestamps handed to the numeric code are the integers of the index.  They are the instants of the index in nanoseconds
exactly when the unit is the nanosecond (or every entry is the epoch itself). -/
theorem C154_timestamps (x : DtIndex) :
    getTimestamps (.dates x) = .ok x.ticks ∧
    (x.ticks = x.instants ↔ x.unit = .ns ∨ ∀ t ∈ x.ticks, t = 0) := by
  refine ⟨rfl, ?_⟩
  unfold DtIndex.instants
  rw [show (x.ticks = x.ticks.map (· * x.unit.nanos)) ↔ (x.ticks.map (· * x.unit.nanos) = x.ticks.map id) by
    rw [List.map_id]; exact eq_comm]
  rw [List.map_inj_left]
  constructor
  · intro h
    by_cases hu : x.unit = .ns
    · exact .inl hu
    · refine .inr fun t ht => ?_
      have h1 := h t ht
      simp only [id] at h1
      have hn : 1 < x.unit.nanos := by
        revert hu; cases x.unit <;> decide
      have h2 : t * (x.unit.nanos - 1) = 0 := by
        have : t * (x.unit.nanos - 1) = t * x.unit.nanos - t := by ring
        omega
      rcases Int.mul_eq_zero.mp h2 with h3 | h3 <;> omega
  · rintro (h | h) t ht
    · simp [h, IndexUnit.nanos]
    · simp [h t ht]

example : getTimestamps (.dates ⟨.us, [1700000000000000]⟩) = .ok [1700000000000000] ∧
    (⟨.us, [1700000000000000]⟩ : DtIndex).instants = [1700000000000000000] := by decide

/-- Input that is no frame, or has no dates in its index, is refused by each of the three. -/
theorem C154_refused (log sqrt exp sin cos : K → K) (hl fl pi2 : K) (w : Int) (b : Bool) (c : List K) (y : List (Option K)) (f : FrameIndex)
    (hf : ∀ x, f ≠ .dates x) :
    ∃ e, getTimestamps f = .error e ∧ returnTOn log f c w b = .error e ∧ ewmstOn sqrt exp hl fl f y = .error e ∧
      timeCuesOn sin cos pi2 f = .error e := by
  cases f with
  | noFrame => exact ⟨_, rfl, rfl, rfl, rfl⟩
  | noDates => exact ⟨_, rfl, rfl, rfl, rfl⟩
  | dates x => exact absurd rfl (hf x)

example : ∀ x, FrameIndex.noDates ≠ .dates x := by intro x h; cases h

/-- Lagged returns over a window `w` on any index are the lagged returns of the instants over a window `nanos` times as long. -/
theorem C154_return (log : K → K) (x : DtIndex) (close : List K) (w : Int) (isLog : Bool) :
    returnTOn log (.dates x) close w isLog = laggedReturns log x.instants close (w * x.unit.nanos) isLog := by
  have hp := nanos_pos x.unit
  generalize hpe : x.unit.nanos = p at hp
  simp only [returnTOn, getTimestamps, laggedReturns, DtIndex.instants, hpe]
  have hw : (w * p ≤ 0) ↔ (w ≤ 0) := by
    constructor
    · intro h
      by_contra hc
      have : 0 < w * p := mul_pos (by omega) hp
      omega
    · intro h
      exact mul_nonpos_of_nonpos_of_nonneg h hp.le
  have h1 : ∀ i, searchRight (x.ticks.map (· * p)) ((x.ticks.map (· * p)).getD i 0 - w * p) = searchRight x.ticks (x.ticks.getD i 0 - w) := by
    intro i
    rw [getD_scale, ← sub_mul, searchRight_scale p hp]
  have h2 : searchLeft (x.ticks.map (· * p)) ((x.ticks.map (· * p)).getD 0 0 + w * p) = searchLeft x.ticks (x.ticks.getD 0 0 + w) := by
    rw [getD_scale, ← add_mul, searchLeft_scale p hp]
  simp only [hw, h1, h2]

example : returnTOn (id : ℚ → ℚ) (.dates ⟨.ms, [0, 60000, 120000]⟩) [100, 110, 121] 60000000000 false = .ok [.nan, .nan, .nan] ∧
    laggedReturns (id : ℚ → ℚ) [0, 60000000000, 120000000000] [100, 110, 121] 60000000000 false =
      .ok [.nan, .fin (1 / 10), .fin (1 / 10)] := by decide +kernel

theorem ewmstState_scale (decay decay' : Int → K) (p : Int) (h : ∀ d, decay' (d * p) = decay d) (ts : List Int) (y : List (Option K)) (i : Nat) :
    ewmstState decay' (ts.map (· * p)) y i = ewmstState decay ts y i := by
  induction i with
  | zero => rfl
  | succ i ih =>
    have hq : decayAt decay' (ts.map (· * p)) (i + 1) = decayAt decay ts (i + 1) := by
      unfold decayAt
      rw [getD_scale, getD_scale, ← sub_mul, h]
    simp only [ewmstState, ih, hq]

/-- The time-decayed deviation on any index is the one of the instants with a half-life `nanos` times as long. -/
theorem C154_ewmst (sqrt exp : K → K) (halfLife floor : K) (x : DtIndex) (y : List (Option K)) :
    ewmstOn sqrt exp halfLife floor (.dates x) y =
      .ok (ewmst sqrt (fun d => exp (-((d : K) / 1000000000) / (halfLife * (x.unit.nanos : K)))) floor x.instants y) := by
  have hp := nanos_pos x.unit
  have hpK : ((x.unit.nanos : Int) : K) ≠ 0 := by
    have : (0 : K) < ((x.unit.nanos : Int) : K) := by exact_mod_cast hp
    exact ne_of_gt this
  simp only [ewmstOn, getTimestamps, ewmst, DtIndex.instants]
  congr 1
  have hs := ewmstState_scale (fun d : Int => exp (-((d : K) / 1000000000) / halfLife))
    (fun d : Int => exp (-((d : K) / 1000000000) / (halfLife * (x.unit.nanos : K)))) x.unit.nanos (by
      intro d
      congr 1
      push_cast
      by_cases hh : halfLife = 0
      · simp [hh]
      · field_simp) x.ticks y
  simp only [hs]

/-- One second between two values, one day of half-life: with a nanosecond index and `exp x` replaced by `1 + x` the weight is `1/86400`; the
same index in seconds has a weight of `1/86400000000000`. -/
example : (fun d : Int => 1 + -((d : ℚ) / 1000000000) / 86400) 1000000000 = 1 - 1 / 86400 ∧
    (fun d : Int => 1 + -((d : ℚ) / 1000000000) / 86400) 1 = 1 - 1 / 86400000000000 := by
  constructor <;> norm_num

/-- The time features at an instant are those of the instant divided by `nanos`. -/
theorem C154_cues (sin cos : K → K) (pi2 : K) (x : DtIndex) :
    timeCuesOn sin cos pi2 (.dates x) = .ok (timeCues sin cos pi2 (x.instants.map (· / x.unit.nanos))) := by
  have hp := nanos_pos x.unit
  simp only [timeCuesOn, getTimestamps, DtIndex.instants, List.map_map]
  congr 2
  conv_lhs => rw [← List.map_id x.ticks]
  apply List.map_congr_left
  intro t _
  simp only [Function.comp_apply, id]
  exact (Int.mul_ediv_cancel t hp.ne').symm

/-- With an index in milliseconds or seconds every instant of the years 1970 to 2083 is a Thursday in the Asian session: the features
that should tell sessions and weekdays apart are constants. -/
theorem C154_cues_constant (u : IndexUnit) (hu : u = .s ∨ u = .ms) (t : Int) (h0 : 0 ≤ t) (h1 : t < 3600000000000000000) :
    (timeCue (t / u.nanos)).dayWeek = 3 ∧ (timeCue (t / u.nanos)).asia = true ∧ (timeCue (t / u.nanos)).eu = false ∧
      (timeCue (t / u.nanos)).us = false := by
  have key : ∀ s : Int, 0 ≤ s → s < 3600000000000 → (timeCue s).dayWeek = 3 ∧ (timeCue s).asia = true ∧ (timeCue s).eu = false ∧
      (timeCue s).us = false := by
    intro s hs0 hs1
    have a0 : 0 ≤ s / 1000000000 := by omega
    have a1 : s / 1000000000 < 3600 := by omega
    simp only [timeCue]
    generalize s / 1000000000 = q at a0 a1
    have b : q % 86400 / 3600 = 0 := by omega
    have c : (q / 86400 + 3) % 7 = 3 := by omega
    simp [b, c]
  rcases hu with rfl | rfl
  · exact key _ (by simp only [IndexUnit.nanos]; omega) (by simp only [IndexUnit.nanos]; omega)
  · exact key _ (by simp only [IndexUnit.nanos]; omega) (by simp only [IndexUnit.nanos]; omega)

/-- 15 November 2023, 17:13:20 UTC, a Wednesday in the American session. -/
example : (timeCue 1700068400000000000).us = true ∧ (timeCue 1700068400000000000).dayWeek = 2 ∧
    (timeCue (1700068400000000000 / IndexUnit.ms.nanos)).us = false ∧ (timeCue (1700068400000000000 / IndexUnit.ms.nanos)).dayWeek = 3 := by
  decide +kernel

/-- The event search of the label kit on a nanosecond index: the first trade not before the event. -/
theorem C154_event_ns (ts : List Int) (r : EventRow K) : eventPosition .ns ts r = searchLeft ts r.ts := by
  simp [eventPosition, IndexUnit.nanos]

/-- On a coarser index an event is placed on the first trade, unless its instant is more than `nanos` times as far from the epoch as the
first trade. -/
theorem C154_event_first (u : IndexUnit) (t0 : Int) (ts : List Int) (r : EventRow K) :
    eventPosition u (t0 :: ts) r = 0 ↔ r.ts < (t0 + 1) * u.nanos := by
  have hp := nanos_pos u
  unfold eventPosition searchLeft
  rw [List.takeWhile_cons]
  have hd : (r.ts / u.nanos < t0 + 1) ↔ r.ts < (t0 + 1) * u.nanos := Int.ediv_lt_iff_lt_mul hp
  rw [← hd]
  by_cases h : t0 < r.ts / u.nanos
  · simp only [h, decide_true, if_true, List.length_cons]
    constructor <;> intro h' <;> omega
  · simp only [h, decide_false]
    constructor
    · intro _; omega
    · intro _; rfl

example : eventPosition (K := ℚ) .us [1700000000000000000, 1700000001000000000, 1700000002000000000] ⟨1700000002000000000, [], none, 1⟩ = 0 ∧
    eventPosition (K := ℚ) .ns [1700000000000000000, 1700000001000000000, 1700000002000000000] ⟨1700000002000000000, [], none, 1⟩ = 2 := by
  decide +kernel

/-- The labels on a nanosecond index are those of the label kit. -/
theorem C154_labels_ns (log : K → K) (o : TbmObj K) (ts : List Int) (close : List K) (hi : o.idx = none) :
    tbmComputeOn log .ns o ts close = tbmCompute log o ts close := by
  have he : tbmIndex { o with idx := some (eventPosition .ns ts) } ts = tbmIndex o ts := by
    funext r
    simp [tbmIndex, hi, C154_event_ns]
  unfold tbmComputeOn
  rw [hi]
  simp only []
  unfold tbmCompute
  cases ts.getLast? with
  | none => cases o; cases hi; rfl
  | some l =>
    simp only [he]
    generalize tripleBarrier log _ ts close _ _ _ = q
    cases o; cases hi
    cases q <;> rfl

/-- Labels on a coarser index: every row that is kept starts at trade 0. -/
theorem C154_labels_coarse (log : K → K) (u : IndexUnit) (o : TbmObj K) (t0 : Int) (ts : List Int) (close : List K) (hi : o.idx = none)
    (hu : ∀ r ∈ o.orig, r.ts < (t0 + 1) * u.nanos) (rows : List (TbmRowOut K)) (hok : (tbmComputeOn log u o (t0 :: ts) close).2 = none)
    (hr : (tbmComputeOn log u o (t0 :: ts) close).1.rowsOut = some rows) : ∀ q ∈ rows, q.eventIdx = 0 := by
  unfold tbmComputeOn at hok hr
  rw [hi] at hok hr
  simp only [] at hok hr
  unfold tbmCompute at hok hr
  cases hl : (t0 :: ts).getLast? with
  | none => simp at hl
  | some l =>
    rw [hl] at hok hr
    simp only [] at hok hr
    have hev : ∀ e ∈ (dropTrailing o.vertical l o.orig).map (tbmIndex { o with idx := some (eventPosition u (t0 :: ts)) } (t0 :: ts)), e = 0 := by
      intro e he
      obtain ⟨r, hrm, rfl⟩ := List.mem_map.mp he
      have : r ∈ o.orig := by
        unfold dropTrailing at hrm
        exact (List.mem_filter.mp hrm).1
      exact (C154_event_first u t0 ts r).mpr (hu r this)
    revert hok hr
    generalize hev' : (dropTrailing o.vertical l o.orig).map (tbmIndex { o with idx := some (eventPosition u (t0 :: ts)) } (t0 :: ts)) = ev
    rw [hev'] at hev
    generalize tripleBarrier log _ (t0 :: ts) close ev _ _ = q
    cases q with
    | error e => intro hok; simp at hok
    | ok res =>
      intro _ hr
      simp only [Option.some.injEq] at hr
      intro q hq
      rw [← hr] at hq
      obtain ⟨a, ha, hq⟩ := List.mem_iff_getElem.mp hq
      rw [List.getElem_zipWith, List.getElem_zip] at hq
      rw [← hq]
      exact hev _ (List.getElem_mem _)

/-- Three trades one second apart, one event on the second trade, vertical barrier of one second. -/
def unitObj : TbmObj ℚ :=
  ⟨.fin 1, .fin 1, 0, 1000000000, 0, false, none, [⟨1700000001000000000, [], some (1 / 10), 1⟩], [⟨1700000001000000000, [], some (1 / 10), 1⟩], none⟩

/-- The event is labelled from the second trade with a nanosecond index and from the first trade with a microsecond index, and the two
labels differ. -/
theorem C154_labels_witness :
    (((tbmComputeOn (fun x => x - 1) .ns unitObj [1700000000000000000, 1700000001000000000, 1700000002000000000] [100, 50, 51]).1.rowsOut.map
        (fun l => l.map (fun r => (r.eventIdx, r.out.label)))) = some [(1, 1)]) ∧
    (((tbmComputeOn (fun x => x - 1) .us unitObj [1700000000000000000, 1700000001000000000, 1700000002000000000] [100, 50, 51]).1.rowsOut.map
        (fun l => l.map (fun r => (r.eventIdx, r.out.label)))) = some [(0, -1)]) := by
  decide +kernel

end FinML

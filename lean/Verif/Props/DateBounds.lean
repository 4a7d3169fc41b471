/-
C153: what a date means as the end of a range, in the trade loader, the trade view, the bar reader and the footprint
slice.  `finmlkit/bar/data_model.py`, `finmlkit/bar/io.py`.
-/
import Verif.Props.Inspector
import Verif.Props.TimeBarStore
import Verif.Props.FootprintData

set_option linter.unusedSectionVars false

namespace FinML

variable {K : Type} [Field K] [LinearOrder K] [IsStrictOrderedRing K]
variable {κ : Type} [LinearOrder κ]

/-! ## Specification -/

/-- The instant `t` lies on day `d` (days since 1970-01-01). -/
def OnDay (d t : Int) : Prop := d * 86400000000000 ≤ t ∧ t < (d + 1) * 86400000000000

/-- The instant that `pd.Timestamp` gives for a date string. -/
def dateInstant (d : Int) : Int := d * 86400000000000

/-- The first and the last nanosecond that pandas gives for a date string in a slice of a `DatetimeIndex`. -/
def dateLabel (d : Int) : Int × Int := (d * 86400000000000, (d + 1) * 86400000000000 - 1)

/-- Every loaded row lies in the bounds, for any store and any order of the workers. -/
theorem loadTrades_bounds (sortIdx : List (OutTrade K) → List (OutTrade K)) (hsort : SortsByTime sortIdx) (st : Store κ K)
    (key : Option κ) (start stop : Option Int) (c : Option (List κ)) (out : List (OutTrade K))
    (h : loadTrades sortIdx st key start stop c = .ok out) : ∀ r ∈ out, inBounds start stop r.ts = true := by
  have hus : ∀ k rows, usable (loadGroup st start stop k) = some rows → ∀ r ∈ rows, inBounds start stop r.ts = true := by
    intro k rows hk r hr
    unfold loadGroup at hk
    cases hg : aget k st.trades with
    | none => rw [hg] at hk; cases hk
    | some l =>
      rw [hg] at hk
      simp only at hk
      have hrows : rows = l.filter (fun r => inBounds start stop r.ts) := by
        cases hf : l.filter (fun r => inBounds start stop r.ts) with
        | nil => rw [hf] at hk; cases hk
        | cons x xs => rw [hf] at hk; exact (Option.some.inj hk).symm
      rw [hrows] at hr
      exact (List.mem_filter.mp hr).2
  unfold loadTrades at h
  cases hk : keysToLoad st key start stop with
  | error e => rw [hk] at h; cases h
  | ok ks =>
    rw [hk] at h
    simp only at h
    set frames := (match c with
      | none => loadSequential (loadGroup st start stop) ks
      | some c => loadParallel (loadGroup st start stop) c ks)
    have hin : ∀ rows ∈ frames, ∀ r ∈ rows, inBounds start stop r.ts = true := by
      intro rows hrows
      cases c with
      | none =>
        obtain ⟨k, _, hk⟩ := List.mem_filterMap.mp (show rows ∈ loadSequential (loadGroup st start stop) ks from hrows)
        exact hus k rows hk
      | some p =>
        obtain ⟨k, _, hk⟩ := List.mem_filterMap.mp (show rows ∈ loadParallel (loadGroup st start stop) p ks from hrows)
        rw [collectResults_aget] at hk
        split_ifs at hk
        exact hus k rows hk
    replace h : finishLoad sortIdx frames = .ok out := h
    clear_value frames
    unfold finishLoad at h
    split_ifs at h with h1
    obtain rfl := Except.ok.inj h
    intro r hr
    have hr' : r ∈ frames.flatten := by
      by_cases h2 : rowsMonotone frames.flatten = true
      · rwa [if_pos h2] at hr
      · rw [if_neg h2] at hr; exact (hsort _).1.mem_iff.mp hr
    obtain ⟨rows, hrows, hr⟩ := List.mem_flatten.mp hr'
    exact hin rows hrows r hr

/-! ## C153 -/

/-- **C153 (loading trades).** Loading trades up to a date gives no trade of that day but those of its first nanosecond;
for all stores, months, starts, and worker orders. -/
theorem C153_load (sortIdx : List (OutTrade K) → List (OutTrade K)) (hsort : SortsByTime sortIdx) (st : Store κ K)
    (key : Option κ) (start : Option Int) (d : Int) (c : Option (List κ)) (out : List (OutTrade K))
    (h : loadTrades sortIdx st key start (some (dateInstant d)) c = .ok out) :
    ∀ r ∈ out, OnDay d r.ts → r.ts = dateInstant d := by
  intro r hr hd
  have hb := loadTrades_bounds sortIdx hsort st key start _ c out h r hr
  simp only [inBounds, Bool.and_eq_true, decide_eq_true_eq] at hb
  unfold OnDay at hd
  have := hb.2
  unfold dateInstant at *
  omega

/-- **C153 (viewing trades).** A view between two dates likewise ends at the start of the second one, and a view of one
day, with its date at both ends, is refused. -/
theorem C153_view (a b : Int) (rows : List (OutTrade K)) (hs : rows.Pairwise (fun a b => a.ts ≤ b.ts)) :
    (a < b → setViewRange (dateInstant a) (dateInstant b) = .ok (some (dateInstant a, dateInstant b)) ∧
      viewData (some (dateInstant a, dateInstant b)) rows =
        rows.filter (fun r => decide (dateInstant a ≤ r.ts ∧ (r.ts < dateInstant b ∨ r.ts = dateInstant b)))) ∧
    (∃ e, setViewRange (dateInstant a) (dateInstant a) = .error e) := by
  refine ⟨fun hab => ⟨?_, ?_⟩, ?_⟩
  · unfold setViewRange dateInstant
    rw [if_neg (by omega)]
  · rw [C62_view_exact _ _ rows hs]
    apply List.filter_congr
    intro r _
    rw [← Bool.decide_and]
    apply decide_eq_decide.mpr
    omega
  · unfold setViewRange
    rw [if_pos (le_refl _)]
    exact ⟨_, rfl⟩

/-- **C153 (reading bars).** The bar reader takes the whole day: a stored bar on a full second of the last day is kept. -/
theorem C153_bars (d t : Int) (start : Option Int) (hst : ∀ s, start = some s → s ≤ t) (ht : t % 1000000000 = 0)
    (hd : OnDay d t) : inBounds start (effectiveEnd (some (dateInstant d))) t = true := by
  obtain ⟨he, hiff⟩ := C47_end_of_day (dateInstant d) t (by unfold dateInstant dayNs; omega) ht
  rw [he]
  unfold OnDay at hd
  have h2 : t ≤ dateInstant d + dayNs - 1000 := hiff.mpr (by unfold dateInstant dayNs; omega)
  cases start with
  | none => simp only [inBounds, Bool.true_and, decide_eq_true_eq]; exact h2
  | some s => simp only [inBounds, Bool.and_eq_true, decide_eq_true_eq]; exact ⟨hst s rfl, h2⟩

/-- **C153 (slicing footprints).** So does the footprint container: the bars of all days from the first to the last. -/
theorem C153_footprints (f : FpData K) (h : f.Aligned) (hs : f.ts.Pairwise (· ≤ ·)) (a b : Int) :
    ∃ r, f.get (.dates (dateLabel a) (dateLabel b)) = .ok (.inl r) ∧
      ∀ t, t ∈ r.ts ↔ t ∈ f.ts ∧ ∃ d, a ≤ d ∧ d ≤ b ∧ OnDay d t := by
  refine ⟨_, C75_dates f h hs _ _, ?_⟩
  intro t
  have hk : (f.mapCols (keepCol (fun t => decide ((dateLabel a).1 ≤ t ∧ t ≤ (dateLabel b).2)) f.ts)).ts =
      f.ts.filter (fun t => decide ((dateLabel a).1 ≤ t ∧ t ≤ (dateLabel b).2)) := by
    show keepCol (fun t => decide ((dateLabel a).1 ≤ t ∧ t ≤ (dateLabel b).2)) f.ts f.ts = _
    unfold keepCol
    induction f.ts with
    | nil => rfl
    | cons x xs ih =>
      by_cases hx : (dateLabel a).1 ≤ x ∧ x ≤ (dateLabel b).2 <;> simp_all [List.filter_cons]
  rw [hk, List.mem_filter, decide_eq_true_eq]
  unfold dateLabel OnDay
  constructor
  · rintro ⟨h1, h2, h3⟩
    exact ⟨h1, t / 86400000000000, by omega, by omega, by omega, by omega⟩
  · rintro ⟨h1, d, h2, h3, h4, h5⟩
    refine ⟨h1, ?_, ?_⟩ <;> omega

/-- Trades at 00:00 and 12:00 of the days 0 and 1. -/
def halfDayTrades : List (OutTrade ℚ) :=
  [⟨0, 10, 1, 1⟩, ⟨43200000000000, 11, 1, 1⟩, ⟨86400000000000, 12, 1, 1⟩, ⟨129600000000000, 13, 1, 1⟩]

/-- **C153 (witness).** Saved and loaded from day 0 to day 1, or viewed so: the noon of day 1 is missing.  Bars with the
same times keep it. -/
theorem C153_witness :
    (loadTrades id (runHistory (fun _ => (0 : Nat)) Store.empty [(none, ⟨halfDayTrades, true, 0, []⟩)]) none
      (some (dateInstant 0)) (some (dateInstant 1)) none).toOption.map (fun l => l.map (·.price)) = some [10, 11, 12] ∧
    (viewData (some (dateInstant 0, dateInstant 1)) halfDayTrades).map (·.price) = [10, 11, 12] ∧
    (readBars sortBySize (runBuilds (KStore.empty : KStore Nat ℚ)
      [⟨1, false, .ok (halfDayTrades.map (fun r => ⟨r.ts, r.price, 1, 1, 1, 1, 1, some 1, 1⟩))⟩])
      (some (dateInstant 0)) (some (dateInstant 1)) none).toOption.map (fun l => l.length) = some 4 := by
  decide +kernel

example : OnDay 1 129600000000000 ∧ (129600000000000 : Int) % 1000000000 = 0 ∧
    halfDayTrades.Pairwise (fun a b => a.ts ≤ b.ts) :=
  ⟨⟨by norm_num, by norm_num⟩, by norm_num, by decide +kernel⟩

end FinML

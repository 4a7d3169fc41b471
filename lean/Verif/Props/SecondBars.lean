/-
C147, C148: the clock of the stored bars, and bars before the first trade.
-/
import Verif.Props.Orchestrate
import Verif.Props.ResampleTrades
import Verif.Props.VolTarget

set_option linter.unusedSectionVars false

namespace FinML

variable {K : Type} [Field K] [LinearOrder K] [IsStrictOrderedRing K] {κ : Type} [LinearOrder κ]

/-- **C147 (clock).** The bars stored for a month whose trades are in order of time are stamped with consecutive whole seconds: the first at
the end of the second of the first trade, the last less than two seconds after the last trade and at least one. -/
theorem C147_second_bars (sortIdx : List (OutTrade K) → List (OutTrade K)) (st : Store κ K) (k : κ) (rows : List (OutTrade K))
    (hrows : loadTrades sortIdx st (some k) none none none = .ok rows) (hne : rows ≠ []) (hs : rows.Pairwise (fun a b => a.ts ≤ b.ts)) :
    ∃ bars, secondBars sortIdx st k = .ok bars ∧
      (∀ (i : Nat) (h : i < bars.length), bars[i].ts = ((rows.head hne).ts / 1000000000 + i + 1) * 1000000000) ∧
      ∃ b ∈ bars.getLast?, (rows.getLast hne).ts + 1000000000 ≤ b.ts ∧ b.ts < (rows.getLast hne).ts + 2000000000 := by
  set l : List (Int × K × K) := rows.map (fun r => (r.ts, r.price, r.amount)) with hl
  have hlne : l ≠ [] := by simpa [hl] using hne
  have e1 : l.map (·.1) = rows.map (·.ts) := by simp [hl, Function.comp_def]
  have e2 : l.map (·.2.1) = rows.map (·.price) := by simp [hl, Function.comp_def]
  have e3 : l.map (·.2.2) = rows.map (·.amount) := by simp [hl, Function.comp_def]
  have hs' : (l.map (·.1)).Pairwise (· ≤ ·) := by rw [e1]; exact List.pairwise_map.mpr hs
  have hb := buildTimeBars_eq l 1000000000 (by norm_num) hlne hs'
  have htne : l.map (·.1) ≠ [] := by simpa using hlne
  obtain ⟨-, k2, k3, k4, -⟩ := C01_timeBars_clock (l.map (·.1)) 1000000000 (by norm_num) htne hs'
  have hcl := timeBarClock_length_pos (l.map (·.1)) 1000000000 (by norm_num) htne hs'
  simp only [timeBarIndexer] at k2 k3 k4
  have hfirst : (l.map (·.1)).headD 0 = (rows.head hne).ts := by
    rw [e1]
    cases rows with
    | nil => exact absurd rfl hne
    | cons a r => rfl
  have hget : ∀ (i : Nat) (h : i < (timeBarClock (l.map (·.1)) 1000000000).length),
      (timeBarClock (l.map (·.1)) 1000000000)[i] = (rows.head hne).ts / 1000000000 * 1000000000 + i * 1000000000 := by
    intro i h
    simp only [timeBarClock, arange_getElem, hfirst]
  have hlast : (l.map (·.1)).getLast htne = (rows.getLast hne).ts := by
    simp [e1]
  rw [e1, e2, e3] at hb
  refine ⟨_, by unfold secondBars; rw [hrows]; exact hb, ?_, ?_⟩
  · intro i h
    simp only [List.getElem_map, List.getElem_zip, List.getElem_tail]
    rw [← e1] at h
    have hi : i + 1 < (timeBarClock (l.map (·.1)) 1000000000).length := by
      simp only [List.length_map, List.length_zip, List.length_tail] at h
      omega
    have := hget (i + 1) hi
    simp only [e1] at this
    rw [this]
    push_cast
    ring
  · obtain ⟨c, hc, h1, h2⟩ := k4
    rw [hlast] at h1 h2
    rw [e1] at hc hcl
    generalize hclk : timeBarClock (rows.map (·.ts)) 1000000000 = clock at hc hcl ⊢
    rw [List.getLast?_eq_getElem?] at hc ⊢
    simp only [List.getElem?_map, List.length_map, List.length_zip, List.length_tail]
    have hm : min clock.length (clock.length - 1) - 1 = clock.length - 2 := by omega
    rw [hm]
    have hz : (clock.zip clock.tail)[clock.length - 2]? = some (clock[clock.length - 2]'(by omega), c) := by
      rw [List.getElem?_zip_eq_some]
      refine ⟨List.getElem?_eq_getElem (by omega), ?_⟩
      rw [List.getElem?_tail, show clock.length - 2 + 1 = clock.length - 1 by omega]
      exact hc
    rw [hz]
    have h3 : c < (rows.getLast hne).ts + 2000000000 := by omega
    exact ⟨_, rfl, h1, h3⟩

/-- **C148 (no trade yet).** A bar before the first trade has no target. -/
theorem C148_before_first (ts : List Int) (vals : List (Option K)) (t : Int) (stamps : List Int) (h : ∀ u ∈ ts.head?, t < u) (i : Nat)
    (hi : stamps[i]? = some t) : (mergeAsof ts vals stamps)[i]? = some none := by
  unfold mergeAsof
  rw [List.getElem?_map, hi]
  have : searchRight ts t = 0 := by
    cases ts with
    | nil => rfl
    | cons u r =>
      have : t < u := h u rfl
      simp [searchRight, show ¬ u ≤ t by omega]
  simp [asofAt, this]

/-- Three trades in two seconds. -/
def secondDemo : Store Nat ℚ := ⟨[(1, [⟨1500000000, 3, 1, 1⟩, ⟨1700000000, 4, 1, 1⟩, ⟨3200000000, 5, 2, -1⟩])], [], []⟩

example : (secondBars id secondDemo 1).toOption.map (fun bs => bs.map (fun b => (b.ts, b.opn, b.close, b.volume))) =
    some [(2000000000, 3, 4, 2), (3000000000, 4, 4, 0), (4000000000, 5, 5, 2), (5000000000, 5, 5, 0)] := by decide +kernel

/-- The hypotheses of `C147_second_bars` hold for it. -/
example : ∃ rows, loadTrades id secondDemo (some 1) none none none = .ok rows ∧ rows ≠ [] ∧ rows.Pairwise (fun a b => a.ts ≤ b.ts) :=
  ⟨_, rfl, by decide +kernel, by decide +kernel⟩

/-- The hypotheses of `C148_before_first` hold for it. -/
example : (∀ u ∈ ([10, 20] : List Int).head?, (5 : Int) < u) ∧ ([5, 15] : List Int)[0]? = some 5 ∧
    mergeAsof [10, 20] [some (1 : ℚ), some 2] [5, 15] = [none, some 1] := by decide +kernel

end FinML

/-
C22 (month ranges and month strings), C52 (checksum verification).  `scripts/binance2h5.py`.
-/
import Verif.Model.Months
import Mathlib.Tactic.IntervalCases

set_option linter.unusedSectionVars false

namespace FinML

/-! ## Specification -/

/-- A calendar month. -/
def Month.Valid (m : Month) : Prop := 1 ≤ m.month ∧ m.month ≤ 12

/-- Months since January of year 0: the chronological position. -/
def Month.num (m : Month) : Nat := 12 * m.year + (m.month - 1)

/-! ## Lemmas -/

theorem Month.le_iff {a b : Month} (ha : a.Valid) (hb : b.Valid) : a.le b = true ↔ a.num ≤ b.num := by
  unfold Month.le Month.num Month.Valid at *
  simp only [Bool.or_eq_true, Bool.and_eq_true, decide_eq_true_eq]
  omega

theorem Month.next_valid {m : Month} (h : m.Valid) : m.next.Valid ∧ m.next.num = m.num + 1 := by
  unfold Month.next Month.num Month.Valid at *
  split_ifs <;> refine ⟨⟨?_, ?_⟩, ?_⟩ <;> simp only <;> omega

theorem Month.num_inj {a b : Month} (ha : a.Valid) (hb : b.Valid) (h : a.num = b.num) : a = b := by
  obtain ⟨ay, am⟩ := a
  obtain ⟨by', bm⟩ := b
  unfold Month.num Month.Valid at *
  simp only at *
  have h1 : ay = by' := by omega
  have h2 : am = bm := by omega
  rw [h1, h2]

theorem monthLoop_spec (stop : Month) (hs : stop.Valid) (fuel : Nat) (m : Month) (hm : m.Valid)
    (hf : stop.num + 1 ≤ m.num + fuel) :
    (∀ x, x ∈ monthLoop stop fuel m ↔ x.Valid ∧ m.num ≤ x.num ∧ x.num ≤ stop.num) ∧
    (monthLoop stop fuel m).Pairwise (fun a b => a.num < b.num) ∧
    (monthLoop stop fuel m).length = stop.num + 1 - m.num := by
  induction fuel generalizing m with
  | zero =>
    refine ⟨?_, List.Pairwise.nil, by simp [monthLoop]; omega⟩
    intro x
    simp only [monthLoop, List.not_mem_nil, false_iff]
    rintro ⟨_, h1, h2⟩; omega
  | succ fuel ih =>
    unfold monthLoop
    have hn := Month.next_valid hm
    by_cases h : m.le stop = true
    · rw [if_pos h]
      have hle := (Month.le_iff hm hs).mp h
      obtain ⟨i1, i2, i3⟩ := ih m.next hn.1 (by omega)
      refine ⟨?_, ?_, ?_⟩
      · intro x
        rw [List.mem_cons, i1 x]
        constructor
        · rintro (rfl | ⟨h1, h2, h3⟩)
          · exact ⟨hm, le_refl _, hle⟩
          · exact ⟨h1, by omega, h3⟩
        · rintro ⟨h1, h2, h3⟩
          by_cases he : x.num = m.num
          · exact Or.inl (Month.num_inj h1 hm he)
          · exact Or.inr ⟨h1, by omega, h3⟩
      · rw [List.pairwise_cons]
        refine ⟨?_, i2⟩
        intro x hx
        have := (i1 x).mp hx
        omega
      · rw [List.length_cons, i3]; omega
    · rw [if_neg h]
      have hlt : stop.num < m.num := by
        by_contra h'
        exact h ((Month.le_iff hm hs).mpr (by omega))
      refine ⟨?_, List.Pairwise.nil, by simp; omega⟩
      intro x
      simp only [List.not_mem_nil, false_iff]
      rintro ⟨_, h1, h2⟩; omega

/-! ## C22 -/

/-- **C22.** For valid months, the range is an error when the end precedes the start, and otherwise lists every month
from start to end inclusive — no other, none twice — in chronological order. -/
theorem C22_month_range (start stop : Month) (h1 : start.Valid) (h2 : stop.Valid) :
    (stop.num < start.num → ∃ e, monthRange start stop = .error e) ∧
    (start.num ≤ stop.num → ∃ out, monthRange start stop = .ok out ∧
      (∀ m, m ∈ out ↔ m.Valid ∧ start.num ≤ m.num ∧ m.num ≤ stop.num) ∧
      out.Pairwise (fun a b => a.num < b.num) ∧ out.length = stop.num - start.num + 1) := by
  unfold monthRange
  constructor
  · intro h
    have : start.le stop = false := by
      rw [Bool.eq_false_iff]
      intro h'
      have := (Month.le_iff h1 h2).mp h'
      omega
    simp [this]
  · intro h
    rw [(Month.le_iff h1 h2).mpr h]
    obtain ⟨a, b, c⟩ := monthLoop_spec stop h2 (12 * (stop.year - start.year) + 13) start h1 (by
      unfold Month.num Month.Valid at *; omega)
    exact ⟨_, rfl, a, b, by rw [c]; omega⟩

/-- **C22 (termination).** The iteration bound of the model is never reached: any larger bound gives the same range, so
the `while` loop of the code terminates with it. -/
theorem C22_fuel_irrelevant (start stop : Month) (h1 : start.Valid) (h2 : stop.Valid) (fuel : Nat)
    (hf : 12 * (stop.year - start.year) + 13 ≤ fuel) :
    monthLoop stop fuel start = monthLoop stop (12 * (stop.year - start.year) + 13) start := by
  have hb : stop.num + 1 ≤ start.num + (12 * (stop.year - start.year) + 13) := by
    unfold Month.num Month.Valid at *; omega
  have key : ∀ (f g : Nat) (m : Month), m.Valid → stop.num + 1 ≤ m.num + f → stop.num + 1 ≤ m.num + g →
      monthLoop stop f m = monthLoop stop g m := by
    intro f
    induction f with
    | zero =>
      intro g m hm h0 hg
      cases g with
      | zero => rfl
      | succ g =>
        unfold monthLoop
        rw [if_neg]
        intro h
        have := (Month.le_iff hm h2).mp h
        omega
    | succ f ih =>
      intro g m hm h0 hg
      cases g with
      | zero =>
        unfold monthLoop
        rw [if_neg]
        intro h
        have := (Month.le_iff hm h2).mp h
        omega
      | succ g =>
        unfold monthLoop
        by_cases h : m.le stop = true
        · rw [if_pos h, if_pos h]
          have hn := Month.next_valid hm
          rw [ih g m.next hn.1 (by omega) (by omega)]
        · rw [if_neg h, if_neg h]
  exact key fuel _ start h1 (by omega) hb

example : (⟨2023, 11⟩ : Month).Valid ∧ (⟨2024, 2⟩ : Month).Valid ∧
    monthRange ⟨2023, 11⟩ ⟨2024, 2⟩ = .ok [⟨2023, 11⟩, ⟨2023, 12⟩, ⟨2024, 1⟩, ⟨2024, 2⟩] := by
  unfold Month.Valid; decide +kernel

/-! ### Month strings -/

/-- The digit character of `d < 10`. -/
theorem digitChar_toNat (d : Nat) (h : d < 10) : (Nat.digitChar d).toNat = d + 48 := by
  interval_cases d <;> decide

theorem zpad_two (n : Nat) (h : n < 100) : zpad 2 n = [Nat.digitChar (n / 10), Nat.digitChar (n % 10)] := by
  unfold zpad
  by_cases h1 : n < 10
  · rw [Nat.toDigits_of_lt_base h1]
    have : n / 10 = 0 := by omega
    have h3 : n % 10 = n := by omega
    rw [this, h3]; rfl
  · rw [Nat.toDigits_of_base_le (by norm_num) (by omega), Nat.toDigits_of_lt_base (by omega : n / 10 < 10)]
    rfl

theorem zpad_four (n : Nat) (h : n < 10000) : zpad 4 n =
    [Nat.digitChar (n / 1000), Nat.digitChar (n / 100 % 10), Nat.digitChar (n / 10 % 10), Nat.digitChar (n % 10)] := by
  unfold zpad
  by_cases h1 : n < 10
  · rw [Nat.toDigits_of_lt_base h1]
    have e1 : n / 1000 = 0 := by omega
    have e2 : n / 100 % 10 = 0 := by omega
    have e3 : n / 10 % 10 = 0 := by omega
    have e4 : n % 10 = n := by omega
    rw [e1, e2, e3, e4]; rfl
  · rw [Nat.toDigits_of_base_le (by norm_num) (by omega)]
    by_cases h2 : n < 100
    · rw [Nat.toDigits_of_lt_base (by omega : n / 10 < 10)]
      have e1 : n / 1000 = 0 := by omega
      have e2 : n / 100 % 10 = 0 := by omega
      have e3 : n / 10 % 10 = n / 10 := by omega
      rw [e1, e2, e3]; rfl
    · rw [Nat.toDigits_of_base_le (by norm_num) (by omega : 10 ≤ n / 10)]
      by_cases h3 : n < 1000
      · rw [Nat.toDigits_of_lt_base (by omega : n / 10 / 10 < 10)]
        have e1 : n / 1000 = 0 := by omega
        have e2 : n / 100 % 10 = n / 10 / 10 := by omega
        rw [e1, e2]; rfl
      · rw [Nat.toDigits_of_base_le (by norm_num) (by omega : 10 ≤ n / 10 / 10),
          Nat.toDigits_of_lt_base (by omega : n / 10 / 10 / 10 < 10)]
        have e1 : n / 1000 = n / 10 / 10 / 10 := by omega
        have e2 : n / 100 % 10 = n / 10 / 10 % 10 := by omega
        rw [e1, e2]; rfl

theorem digitChar_facts (d : Nat) (h : d < 10) :
    (Nat.digitChar d).isDigit = true ∧ (Nat.digitChar d).toLower = Nat.digitChar d ∧
    (Nat.digitChar d).isWhitespace = false ∧ Nat.digitChar d ≠ 'n' := by
  interval_cases d <;> decide

/-- **C22 (strings).** The `YYYY-MM` rendering of a valid month of a four-digit year parses back to it. -/
theorem C22_parse_ym (today m : Month) (h : m.Valid) (hy : m.year < 10000) : parseYm today m.ym = .ok m := by
  obtain ⟨y, mo⟩ := m
  unfold Month.Valid at h
  simp only at h hy
  have hs : Month.ym ⟨y, mo⟩ = [Nat.digitChar (y / 1000), Nat.digitChar (y / 100 % 10), Nat.digitChar (y / 10 % 10),
      Nat.digitChar (y % 10), '-', Nat.digitChar (mo / 10), Nat.digitChar (mo % 10)] := by
    unfold Month.ym
    rw [zpad_four y hy, zpad_two mo (by omega)]; rfl
  obtain ⟨d1, l1, w1, n1⟩ := digitChar_facts (y / 1000) (by omega)
  obtain ⟨d2, l2, _, _⟩ := digitChar_facts (y / 100 % 10) (by omega)
  obtain ⟨d3, l3, _, _⟩ := digitChar_facts (y / 10 % 10) (by omega)
  obtain ⟨d4, l4, _, _⟩ := digitChar_facts (y % 10) (by omega)
  obtain ⟨d5, l5, _, _⟩ := digitChar_facts (mo / 10) (by omega)
  obtain ⟨d6, l6, w6, _⟩ := digitChar_facts (mo % 10) (by omega)
  have t1 := digitChar_toNat (y / 1000) (by omega)
  have t2 := digitChar_toNat (y / 100 % 10) (by omega)
  have t3 := digitChar_toNat (y / 10 % 10) (by omega)
  have t4 := digitChar_toNat (y % 10) (by omega)
  have t5 := digitChar_toNat (mo / 10) (by omega)
  have t6 := digitChar_toNat (mo % 10) (by omega)
  rw [hs]
  generalize Nat.digitChar (y / 1000) = c1 at *
  generalize Nat.digitChar (y / 100 % 10) = c2 at *
  generalize Nat.digitChar (y / 10 % 10) = c3 at *
  generalize Nat.digitChar (y % 10) = c4 at *
  generalize Nat.digitChar (mo / 10) = c5 at *
  generalize Nat.digitChar (mo % 10) = c6 at *
  have hstrip : strip [c1, c2, c3, c4, '-', c5, c6] = [c1, c2, c3, c4, '-', c5, c6] := by
    unfold strip
    simp [w1, w6]
  have hlow : ([c1, c2, c3, c4, '-', c5, c6] : List Char).map Char.toLower = [c1, c2, c3, c4, '-', c5, c6] := by
    have : Char.toLower '-' = '-' := by decide
    simp [l1, l2, l3, l4, l5, l6, this]
  have hmatch : matchYm [c1, c2, c3, c4, '-', c5, c6] = some ([c1, c2, c3, c4], some [c5, c6]) := by
    unfold matchYm oneOrTwoDigits
    simp [d1, d2, d3, d4, d5, d6]
  unfold parseYm
  rw [hstrip, hlow]
  simp only [hmatch]
  rw [if_neg (by simp)]
  have r1 : readNat [c1, c2, c3, c4] = y := by
    unfold readNat
    simp only [List.foldl_cons, List.foldl_nil, t1, t2, t3, t4]
    omega
  have r2 : readNat [c5, c6] = mo := by
    unfold readNat
    simp only [List.foldl_cons, List.foldl_nil, t5, t6]
    omega
  show (if monthOf (some [c5, c6]) < 1 ∨ _ then _ else _) = _
  rw [r1, show monthOf (some [c5, c6]) = mo from r2, if_neg (by omega)]

example : (⟨2024, 3⟩ : Month).Valid ∧ (⟨2024, 3⟩ : Month).ym = "2024-03".toList ∧ parseYm ⟨2025, 1⟩ "2024-03".toList = .ok ⟨2024, 3⟩ := by
  unfold Month.Valid
  decide +kernel

/-- **C22 (parsing is sound).** Whatever string is accepted, the result is a valid month (if today's is). -/
theorem C22_parse_valid (today : Month) (ht : today.Valid) (s : List Char) (m : Month) (h : parseYm today s = .ok m) :
    m.Valid := by
  unfold parseYm at h
  simp only at h
  split at h
  · obtain rfl := Except.ok.inj h; exact ht
  · cases hm : matchYm (List.map Char.toLower (strip s)) with
    | none => rw [hm] at h; cases h
    | some p =>
      obtain ⟨y, mo⟩ := p
      rw [hm] at h
      simp only at h
      generalize monthOf mo = mon at h
      by_cases hv : mon < 1 ∨ mon > 12
      · rw [if_pos hv] at h; cases h
      · rw [if_neg hv] at h
        obtain rfl := Except.ok.inj h
        unfold Month.Valid
        simp only
        omega

example : (⟨2025, 1⟩ : Month).Valid ∧ parseYm ⟨2025, 1⟩ "2024-12".toList = .ok ⟨2024, 12⟩ := by
  unfold Month.Valid
  decide +kernel

/-- **C22 (string order).** For years below 10000, comparing `YYYY-MM` strings (as the archive filter and the sorted
store keys do) is comparing months chronologically. -/
theorem C22_ym_order (a b : Month) (ha : a.Valid) (hb : b.Valid) (hya : a.year < 10000) (hyb : b.year < 10000) :
    a.ym < b.ym ↔ a.num < b.num := by
  obtain ⟨ya, ma⟩ := a
  obtain ⟨yb, mb⟩ := b
  unfold Month.Valid at ha hb
  simp only at ha hb hya hyb
  have hs : ∀ y mo, y < 10000 → mo < 100 → Month.ym ⟨y, mo⟩ = [Nat.digitChar (y / 1000), Nat.digitChar (y / 100 % 10),
      Nat.digitChar (y / 10 % 10), Nat.digitChar (y % 10), '-', Nat.digitChar (mo / 10), Nat.digitChar (mo % 10)] := by
    intro y mo h1 h2
    unfold Month.ym
    rw [zpad_four y h1, zpad_two mo h2]; rfl
  rw [hs ya ma hya (by omega), hs yb mb hyb (by omega)]
  have hlt : ∀ d e, d < 10 → e < 10 → (Nat.digitChar d < Nat.digitChar e ↔ d < e) := by
    intro d e hd he
    interval_cases d <;> interval_cases e <;> decide
  have heq : ∀ d e, d < 10 → e < 10 → (Nat.digitChar d = Nat.digitChar e ↔ d = e) := by
    intro d e hd he
    interval_cases d <;> interval_cases e <;> decide
  simp only [List.cons_lt_cons_iff, true_and, List.not_lt_nil, and_false, or_false]
  rw [hlt _ _ (by omega) (by omega), hlt _ _ (by omega) (by omega), hlt _ _ (by omega) (by omega),
    hlt _ _ (by omega) (by omega), hlt _ _ (by omega) (by omega), hlt _ _ (by omega) (by omega),
    heq _ _ (by omega) (by omega), heq _ _ (by omega) (by omega), heq _ _ (by omega) (by omega),
    heq _ _ (by omega) (by omega), heq _ _ (by omega) (by omega)]
  have hc : ¬ ('-' : Char) < '-' := by decide
  have dig : ∀ y, y < 10000 → ∃ a b c d, a < 10 ∧ b < 10 ∧ c < 10 ∧ d < 10 ∧ y = 1000 * a + 100 * b + 10 * c + d ∧
      y / 1000 = a ∧ y / 100 % 10 = b ∧ y / 10 % 10 = c ∧ y % 10 = d := by
    intro y hy
    exact ⟨y / 1000, y / 100 % 10, y / 10 % 10, y % 10, by omega, by omega, by omega, by omega, by omega, rfl, rfl,
      rfl, rfl⟩
  obtain ⟨a1, a2, a3, a4, _, _, _, _, hA, e1, e2, e3, e4⟩ := dig ya hya
  obtain ⟨b1, b2, b3, b4, _, _, _, _, hB, f1, f2, f3, f4⟩ := dig yb hyb
  rw [e1, e2, e3, e4, f1, f2, f3, f4]
  have hma : ma / 10 < mb / 10 ∨ ma / 10 = mb / 10 ∧ ma % 10 < mb % 10 ↔ ma < mb := by omega
  simp only [hc, false_or]
  rw [hma]
  unfold Month.num
  simp only
  clear dig hs hlt heq e1 e2 e3 e4 f1 f2 f3 f4
  omega

example : (⟨2023, 12⟩ : Month).Valid ∧ (⟨2024, 3⟩ : Month).Valid ∧ (⟨2023, 12⟩ : Month).num < (⟨2024, 3⟩ : Month).num := by
  unfold Month.Valid
  decide

/-- **C22 (limit).** The two-digit rendering used in file names is not an input format: it parses as a year. -/
theorem C22_yymm_not_parsed : parseYm ⟨2025, 1⟩ (Month.yymm ⟨2025, 3⟩) = .ok ⟨2503, 1⟩ := by decide +kernel

example : parseYm ⟨2025, 1⟩ " 2023-07 ".toList = .ok ⟨2023, 7⟩ ∧ parseYm ⟨2025, 1⟩ "Now".toList = .ok ⟨2025, 1⟩ ∧
    parseYm ⟨2025, 1⟩ "2023".toList = .ok ⟨2023, 1⟩ ∧ parseYm ⟨2025, 1⟩ "20239".toList = .ok ⟨2023, 9⟩ := by
  decide +kernel

/-! ## C52 -/

/-- **C52.** When a digest is available, verification succeeds exactly when one of the archive's hashes equals it. -/
theorem C52_checksum_partial (d : String) (hashes : List (Option String)) :
    verifyChecksum (some d) hashes = true ↔ some d ∈ hashes := by
  unfold verifyChecksum
  simp only [List.any_eq_true]
  constructor
  · rintro ⟨h, hm, he⟩
    cases h with
    | none => simp at he
    | some c =>
      have : c = d := by simpa using he
      rw [← this]; exact hm
  · intro hm; exact ⟨some d, hm, by simp⟩

/-- **C52 (violation).** When the checksum file is missing or unreadable, every archive passes verification. -/
theorem C52_missing_checksum_passes (hashes : List (Option String)) : verifyChecksum none hashes = true := rfl

example : verifyChecksum (some "ab") [none, some "ab"] = true ∧ verifyChecksum (some "ab") [some "cd", none] = false := by
  decide

end FinML

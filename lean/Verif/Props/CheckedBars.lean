/-
C155, third part: the tables of every bar builder are computed inside the arrays.
-/
import Verif.Props.CheckedIndexers
import Verif.Props.BarKit
import Verif.Props.TimeBars

set_option linter.unusedSectionVars false

namespace FinML

variable {K : Type} [Field K] [LinearOrder K] [IsStrictOrderedRing K]

/-- Valid close indices whose second entry is a trade make every bar safe. -/
theorem ohlcvSafe_of_valid {c : List Int} {n : Nat} (hc : ValidCloses c n) (h1 : ∀ x, c[1]? = some x → 0 ≤ x) :
    ∀ p ∈ closePairs c, OhlcvSafe n p.1 p.2 := by
  intro p hp
  obtain ⟨i, hi, rfl⟩ := List.mem_iff_getElem.mp hp
  have hlen : i + 1 < c.length := by simp [closePairs] at hi; omega
  simp only [closePairs, List.getElem_zip, List.getElem_tail]
  have hmono : c[i] ≤ c[i + 1] := List.pairwise_iff_getElem.mp hc.mono i (i + 1) (by omega) hlen (by omega)
  have hlow : -1 ≤ c[i] := hc.lower _ (List.getElem_mem _)
  have hup : c[i + 1] < (n : Int) := hc.upper _ (List.getElem_mem _)
  by_cases he : c[i] = c[i + 1]
  · left
    refine ⟨he, ?_, hup⟩
    have h1' : 0 ≤ c[1] := h1 _ (List.getElem?_eq_getElem (by omega))
    cases i with
    | zero => exact h1'
    | succ i =>
      have : c[1] ≤ c[i + 1 + 1] := List.pairwise_iff_getElem.mp hc.mono 1 (i + 1 + 1) (by omega) hlen (by omega)
      omega
  · right
    exact ⟨hlow, by omega, hup⟩

theorem closesAt_nonneg (ts : List Int) (idx : List Nat) (c : List Int × List Int) (h : closesAt ts idx = .ok c) : ∀ x ∈ c.2, 0 ≤ x := by
  unfold closesAt at h
  cases ht : takeAt ts idx with
  | error e => rw [ht] at h; cases h
  | ok r =>
    rw [ht] at h
    injection h with h
    subst h
    intro x hx
    obtain ⟨i, _, rfl⟩ := List.mem_map.mp hx
    omega

/-- Close indices of the builders that close at trades are not negative. -/
theorem closes_nonneg (log : K → K) (tr : KitTrades K) (kind : KitKind K) (hk : kind.closesAtTrades) (c : List Int × List Int)
    (h : compBarClose log tr kind = .ok c) : ∀ x ∈ c.2, 0 ≤ x := by
  cases kind with
  | time I => exact hk.elim
  | tick T => exact closesAt_nonneg _ _ _ h
  | volume T => exact closesAt_nonneg _ _ _ h
  | dollar T => exact closesAt_nonneg _ _ _ h
  | cusum sigma fl mu =>
    unfold compBarClose at h
    cases hx : cusumBarIndexer log tr.ts tr.prices sigma fl mu with
    | error e => simp only [hx] at h; cases h
    | ok idx => simp only [hx] at h; exact closesAt_nonneg _ _ _ h

/-- The second clock time of the time bars is not before the first trade. -/
theorem time_second_close (ts : List Int) (I : Int) (hI : 0 < I) (hne : ts ≠ []) (hs : ts.Pairwise (· ≤ ·)) (x : Int)
    (hx : (timeBarIndexer ts I).2[1]? = some x) : 0 ≤ x := by
  obtain ⟨_, hstep, ⟨c0, hc0, hlo, hhi⟩, _, _⟩ := C01_timeBars_clock ts I hI hne hs
  simp only [timeBarIndexer, List.getElem?_map, Option.map_eq_some_iff] at hx
  obtain ⟨c1, hc1, rfl⟩ := hx
  obtain ⟨h1, he1⟩ := List.getElem?_eq_some_iff.mp hc1
  have h0 : (timeBarClock ts I)[0]? = some c0 := by
    rw [← List.head?_eq_getElem?]; exact hc0
  obtain ⟨h0l, he0⟩ := List.getElem?_eq_some_iff.mp h0
  have hst := hstep 0 (by simpa [timeBarIndexer] using h1)
  simp only [timeBarIndexer, Nat.zero_add] at hst
  rw [he1, he0] at hst
  have : 1 ≤ searchRight ts c1 := by
    cases ts with
    | nil => exact absurd rfl hne
    | cons t ts =>
      simp only [List.head_cons] at hhi
      unfold searchRight
      rw [List.takeWhile_cons, if_pos (by simpa using (by omega : t ≤ c1))]
      simp
  omega

/-- For every builder on non-empty trades in time order, with columns of equal length: the candles are computed from the trades alone, without an
access outside the arrays. -/
theorem C155_builder_ohlcv (log : K → K) (tr : KitTrades K) (kind : KitKind K) (n : Nat) (hn : 0 < n) (hts : tr.ts.length = n)
    (hp : tr.prices.length = n) (ha : tr.amounts.length = n) (hwf : kind.WellFormed n) (hsorted : tr.ts.Pairwise (· ≤ ·)) :
    ∃ c, compBarClose log tr kind = .ok c ∧
      (2 ≤ c.2.length → compBarOhlcvChk tr.prices tr.amounts c.2 = some (compBarOhlcv tr.prices tr.amounts c.2)) := by
  obtain ⟨c, hc, _, hv, _⟩ := C74_closes log tr kind n hn hts hp ha hwf
  refine ⟨c, hc, fun h2 => ?_⟩
  have hs := ohlcvSafe_of_valid (hv h2) (by
    intro x hx
    cases kind with
    | time I =>
      injection hc with hc
      subst hc
      exact time_second_close tr.ts I hwf (by intro h; simp [h] at hts; omega) hsorted x hx
    | tick T => exact closes_nonneg log tr (.tick T) trivial c hc x (List.mem_of_getElem? hx)
    | volume T => exact closes_nonneg log tr (.volume T) trivial c hc x (List.mem_of_getElem? hx)
    | dollar T => exact closes_nonneg log tr (.dollar T) trivial c hc x (List.mem_of_getElem? hx)
    | cusum s f m => exact closes_nonneg log tr (.cusum s f m) trivial c hc x (List.mem_of_getElem? hx))
  rw [← hp] at hs
  exact (C155_ohlcv tr.prices tr.amounts c.2 (by omega) h2).2 hs

/-- For every builder but the time-bar builder: the directional features too. -/
theorem C155_builder_directional (log : K → K) (tr : KitTrades K) (kind : KitKind K) (n : Nat) (hn : 0 < n) (hts : tr.ts.length = n)
    (hp : tr.prices.length = n) (ha : tr.amounts.length = n) (hsd : tr.sides.length = n) (hwf : kind.WellFormed n) (hk : kind.closesAtTrades) :
    ∃ c, compBarClose log tr kind = .ok c ∧ (2 ≤ c.2.length →
      compBarDirectionalChk tr.prices tr.amounts tr.sides c.2 = some (compBarDirectional tr.prices tr.amounts tr.sides c.2)) := by
  obtain ⟨c, hc, _, hv, _⟩ := C74_closes log tr kind n hn hts hp ha hwf
  refine ⟨c, hc, fun h2 => ?_⟩
  have h := hv h2
  exact C155_directional tr.prices tr.amounts tr.sides c.2 (by omega) (by omega)
    (fun x hx => ⟨closes_nonneg log tr kind hk c hc x hx, by rw [hsd]; exact h.upper x hx⟩)

/-- Tick bars of four trades: every hypothesis of the two theorems holds. -/
example : (KitKind.tick (K := ℚ) 2).WellFormed 4 ∧ (KitKind.tick (K := ℚ) 2).closesAtTrades ∧ [(5 : Int), 6, 6, 9].Pairwise (· ≤ ·) :=
  ⟨trivial, trivial, by decide⟩

/-- The first close index of the time bars is -1 unless the first trade is exactly on the clock. -/
theorem time_first_close (ts : List Int) (I : Int) (hI : 0 < I) (hne : ts ≠ []) (hs : ts.Pairwise (· ≤ ·)) :
    ∃ c0 c1 rest, (timeBarIndexer ts I).2 = c0 :: c1 :: rest ∧ 0 ≤ c1 ∧ (I ∣ ts.head hne → 0 ≤ c0) ∧ (¬ I ∣ ts.head hne → c0 = -1) := by
  obtain ⟨hdvd, hstep, ⟨t0, ht0, hlo, hhi⟩, ⟨t1, ht1, hl1, _⟩, hlen⟩ := C01_timeBars_clock ts I hI hne hs
  have hlast : ts.head hne ≤ ts.getLast hne := by
    cases ts with
    | nil => exact absurd rfl hne
    | cons t ts =>
      simp only [List.head_cons]
      rcases List.mem_cons.mp (List.getLast_mem hne) with h | h
      · exact le_of_eq h.symm
      · exact (List.pairwise_cons.mp hs).1 _ h
  have h2 : 2 ≤ (timeBarClock ts I).length := by
    simp only [timeBarIndexer] at ht0 ht1
    rcases hcl : timeBarClock ts I with _ | ⟨a, _ | ⟨b, l⟩⟩
    · rw [hcl] at ht0; simp at ht0
    · rw [hcl] at ht0 ht1
      simp at ht0 ht1
      omega
    · simp
  rcases hcl : timeBarClock ts I with _ | ⟨a, _ | ⟨b, l⟩⟩
  · rw [hcl] at h2; simp at h2
  · rw [hcl] at h2; simp at h2
  · have hi2 : (timeBarIndexer ts I).2 = ((searchRight ts a : Int) - 1) :: ((searchRight ts b : Int) - 1) ::
        l.map (fun c => (searchRight ts c : Int) - 1) := by
      simp only [timeBarIndexer, hcl, List.map_cons]
    have ha : t0 = a := by
      simp only [timeBarIndexer, hcl, List.head?_cons] at ht0
      exact (Option.some.inj ht0).symm
    subst ha
    refine ⟨_, _, _, hi2, ?_, ?_, ?_⟩
    · exact time_second_close ts I hI hne hs _ (by rw [hi2]; rfl)
    · intro hd
      have hda : I ∣ t0 := hdvd t0 (by simp [timeBarIndexer, hcl])
      have he : t0 = ts.head hne := by
        obtain ⟨u, hu⟩ := hd
        obtain ⟨v, hv⟩ := hda
        have h3 : I * v ≤ I * u := by omega
        have h4 : I * u < I * v + I := by omega
        have h5 : v ≤ u := le_of_mul_le_mul_left h3 hI
        have h6 : u < v + 1 := by
          have : I * u < I * (v + 1) := by rw [mul_add, mul_one]; exact h4
          exact lt_of_mul_lt_mul_left this hI.le
        have : u = v := by omega
        rw [hu, hv, this]
      cases ts with
      | nil => exact absurd rfl hne
      | cons t ts =>
        simp only [List.head_cons] at he
        have : 1 ≤ searchRight (t :: ts) t0 := by
          unfold searchRight
          rw [List.takeWhile_cons, if_pos (by simp [he])]
          simp
        omega
    · intro hd
      have hda : I ∣ t0 := hdvd t0 (by simp [timeBarIndexer, hcl])
      have hlt : t0 < ts.head hne := by
        rcases lt_or_eq_of_le hlo with h | h
        · exact h
        · rw [h] at hda; exact absurd hda hd
      cases ts with
      | nil => exact absurd rfl hne
      | cons t ts =>
        simp only [List.head_cons] at hlt
        have : searchRight (t :: ts) t0 = 0 := by
          unfold searchRight
          rw [List.takeWhile_cons, if_neg (by simpa using hlt)]
          rfl
        omega

/-- Directional features of time bars of trades that all have a side: the run stays inside the arrays if and only if the first trade is exactly on the
clock.  Otherwise the first bar reads `trade_sides[-1]` or `prices[-1]`, the last trade of the data. -/
theorem C155_time_directional (tr : KitTrades K) (I : Int) (n : Nat) (hI : 0 < I) (hts : tr.ts.length = n) (hp : tr.prices.length = n)
    (ha : tr.amounts.length = n) (hsd : tr.sides.length = n) (hne : tr.ts ≠ []) (hsorted : tr.ts.Pairwise (· ≤ ·)) (hside : ∀ s ∈ tr.sides, s ≠ 0) :
    (compBarDirectionalChk tr.prices tr.amounts tr.sides (timeBarIndexer tr.ts I).2).isSome ↔ I ∣ tr.ts.head hne := by
  obtain ⟨c0, c1, rest, he, h1, hyes, hno⟩ := time_first_close tr.ts I hI hne hsorted
  have hn : 0 < n := by
    rw [← hts]; exact List.length_pos_iff.mpr hne
  constructor
  · intro h
    by_contra hd
    have hc := hno hd
    subst hc
    rw [he] at h
    unfold compBarDirectionalChk at h
    rw [barsChk_eq] at h
    simp only [closePairs, List.tail_cons, List.zip_cons_cons, List.mapM_cons] at h
    rw [C155_directional_first tr.prices tr.amounts tr.sides c1 (by
      by_cases hz : 1 ≤ c1
      · exact .inl hz
      · refine .inr ⟨by omega, ?_⟩
        have hl : 0 < tr.sides.length := by omega
        have : pyGet tr.sides 0 0 = tr.sides[0] := by simp [pyGet, List.getElem?_eq_getElem hl]
        rw [this]
        exact hside _ (List.getElem_mem _))] at h
    simp at h
  · intro hd
    obtain ⟨c, hc, hlen, hv, _⟩ := C74_closes (fun x => x) tr (.time I) n hn hts hp ha hI
    injection hc with hc
    have h2 : 2 ≤ c.2.length := by rw [← hc, he]; simp
    have hval := hv h2
    rw [← hc] at hval
    rw [C155_directional tr.prices tr.amounts tr.sides (timeBarIndexer tr.ts I).2 (by omega) (by omega) (by
      intro x hx
      refine ⟨?_, by rw [hsd]; exact hval.upper x hx⟩
      have hm := hval.mono
      rw [he] at hm hx
      have h0 := hyes hd
      rcases List.mem_cons.mp hx with rfl | hx
      · exact h0
      · have := (List.pairwise_cons.mp hm).1 x hx
        omega)]
    rfl

/-- Trades at 3, 7 and 12 seconds, bars of 5 seconds: not on the clock.  Trades at 5, 7 and 12 seconds: on the clock. -/
example : compBarDirectionalChk (K := ℚ) [10, 11, 12] [1, 1, 1] [1, -1, 1] (timeBarIndexer [3, 7, 12] 5).2 = none ∧
    (compBarDirectionalChk (K := ℚ) [10, 11, 12] [1, 1, 1] [1, -1, 1] (timeBarIndexer [5, 7, 12] 5).2).isSome = true := by decide +kernel

end FinML

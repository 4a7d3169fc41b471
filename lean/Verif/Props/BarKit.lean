/-
C73 (results of a bar builder do not depend on the calls made before) and C74 (the tables of one builder are aligned
and agree with each other).  `finmlkit/bar/base.py:BarBuilderBase`, `finmlkit/bar/kit.py`.
-/
import Verif.Model.BarKit
import Verif.Props.TimeBars
import Verif.Props.ThresholdBars
import Verif.Props.CusumBars
import Verif.Props.Ohlcv
import Verif.Props.Directional
import Verif.Props.Footprint
import Verif.Props.TradeSize

set_option linter.unusedSectionVars false

namespace FinML

variable {K : Type} [Field K] [LinearOrder K] [IsStrictOrderedRing K]

/-! ## Helper lemmas -/

theorem takeAt_spec (ts : List Int) (idx : List Nat) (r : List Int) (h : takeAt ts idx = .ok r) :
    r.length = idx.length ∧ ∀ (k : Nat) (hk : k < idx.length), r[k]? = ts[idx[k]]? := by
  induction idx generalizing r with
  | nil => simp only [takeAt] at h; cases h; simp
  | cons i is ih =>
    simp only [takeAt] at h
    split at h
    · cases h
    · rename_i t ht
      split at h
      · cases h
      · rename_i q hq
        cases h
        obtain ⟨h1, h2⟩ := ih q hq
        refine ⟨by simp [h1], ?_⟩
        intro k hk
        cases k with
        | zero => simp [ht]
        | succ k =>
          simp only [List.length_cons, Nat.add_lt_add_iff_right] at hk
          simpa using h2 k hk

theorem takeAt_ok (ts : List Int) (idx : List Nat) (h : ∀ i ∈ idx, i < ts.length) : ∃ r, takeAt ts idx = .ok r := by
  induction idx with
  | nil => exact ⟨[], rfl⟩
  | cons i is ih =>
    obtain ⟨r, hr⟩ := ih (fun j hj => h j (by simp [hj]))
    have hi := h i (by simp)
    refine ⟨ts[i] :: r, ?_⟩
    simp only [takeAt]
    rw [List.getElem?_eq_getElem hi]
    simp only [hr]

theorem closesAt_length (ts : List Int) (idx : List Nat) (c : List Int × List Int) (h : closesAt ts idx = .ok c) :
    c.1.length = c.2.length := by
  unfold closesAt at h
  split at h
  · cases h
  · rename_i r hr
    cases h
    simp [(takeAt_spec ts idx r hr).1]

theorem compBarClose_length (log : K → K) (tr : KitTrades K) (kind : KitKind K) (c : List Int × List Int)
    (h : compBarClose log tr kind = .ok c) : c.1.length = c.2.length := by
  cases kind with
  | time I => simp only [compBarClose] at h; cases h; simp [timeBarIndexer]
  | tick T => exact closesAt_length _ _ _ h
  | volume T => exact closesAt_length _ _ _ h
  | dollar T => exact closesAt_length _ _ _ h
  | cusum sg f m =>
    simp only [compBarClose] at h
    split at h
    · cases h
    · exact closesAt_length _ _ _ h

theorem closePairs_length (c : List Int) : (closePairs c).length = c.length - 1 := by
  simp [closePairs]

theorem regularIndex_range' (a s : Int) (n : Nat) : ∀ m : Nat,
    regularIndex s ((List.range' m n).map (fun k : Nat => a + (k : Int) * s)) = true := by
  induction n with
  | zero => intro m; rfl
  | succ n ih =>
    intro m
    rw [List.range'_succ, List.map_cons]
    cases n with
    | zero => rfl
    | succ n =>
      have := ih (m + 1)
      rw [List.range'_succ, List.map_cons] at this ⊢
      simp only [regularIndex, Bool.and_eq_true, decide_eq_true_eq]
      refine ⟨by push_cast; ring, this⟩

theorem regularIndex_clock_tail (ts : List Int) (I : Int) : regularIndex I (timeBarClock ts I).tail = true := by
  unfold timeBarClock arange
  simp only
  rw [← List.map_tail, List.range_eq_range', List.tail_range']
  exact regularIndex_range' _ _ _ _

/-! ## C73 -/

/-- What `build_ohlcv` returns on a new builder. -/
def freshOhlcv (log : K → K) (tr : KitTrades K) (kind : KitKind K) : Except String (List (Int × Ohlcv K)) :=
  match compBarClose log tr kind with
  | .error e => .error e
  | .ok c =>
    match compBarOhlcv tr.prices tr.amounts c.2 with
    | .error e => .error e
    | .ok bars => .ok (c.1.tail.zip bars)

/-- The cached members are unset or hold what a new builder would compute. -/
structure BuilderCacheOk (log : K → K) (tr : KitTrades K) (kind : KitKind K) (s : BuilderState K) : Prop where
  closes : (s.closeTs = none ∧ s.closeIdx = none) ∨
    ∃ c, compBarClose log tr kind = .ok c ∧ s.closeTs = some c.1 ∧ s.closeIdx = some c.2
  extremes : (s.highs = none ∧ s.lows = none) ∨
    ∃ c bars, compBarClose log tr kind = .ok c ∧ compBarOhlcv tr.prices tr.amounts c.2 = .ok bars ∧
      s.highs = some (bars.map (·.high)) ∧ s.lows = some (bars.map (·.low))

theorem builderCacheOk_fresh (log : K → K) (tr : KitTrades K) (kind : KitKind K) :
    BuilderCacheOk log tr kind BuilderState.fresh := ⟨Or.inl ⟨rfl, rfl⟩, Or.inl ⟨rfl, rfl⟩⟩

/-- After `_set_bar_close` the closes are set, unless they cannot be computed. -/
theorem setBarClose_spec (log : K → K) (tr : KitTrades K) (kind : KitKind K) (s : BuilderState K)
    (h : BuilderCacheOk log tr kind s) :
    (∃ e, compBarClose log tr kind = .error e ∧ setBarClose log tr kind s = (s, .error e)) ∨
    (∃ c, compBarClose log tr kind = .ok c ∧
      setBarClose log tr kind s = ({ s with closeTs := some c.1, closeIdx := some c.2 }, .ok ())) := by
  rcases h.closes with ⟨h1, h2⟩ | ⟨c, hc, h1, h2⟩
  · unfold setBarClose
    rw [if_pos ⟨h1, h2⟩]
    cases hcc : compBarClose log tr kind with
    | error e => exact Or.inl ⟨e, rfl, rfl⟩
    | ok c => exact Or.inr ⟨c, rfl, rfl⟩
  · right
    refine ⟨c, hc, ?_⟩
    unfold setBarClose
    rw [if_neg (by rw [h1]; simp)]
    cases s; simp only at h1 h2; subst h1; subst h2; rfl

theorem builderCacheOk_closes (log : K → K) (tr : KitTrades K) (kind : KitKind K) (s : BuilderState K)
    (h : BuilderCacheOk log tr kind s) (c : List Int × List Int) (hc : compBarClose log tr kind = .ok c) :
    BuilderCacheOk log tr kind { s with closeTs := some c.1, closeIdx := some c.2 } :=
  ⟨Or.inr ⟨c, hc, rfl, rfl⟩, h.extremes⟩

theorem compBarOhlcv_length (prices volumes : List K) (closes : List Int) (bars : List (Ohlcv K))
    (h : compBarOhlcv prices volumes closes = .ok bars) : bars.length = closes.length - 1 := by
  unfold compBarOhlcv at h
  split at h
  · cases h
  · split at h
    · cases h
    · cases h; simp [closePairs_length]

theorem asTable_ok {α : Type} (ts : List Int) (rows : List α) (h : rows.length = ts.length - 1) :
    asTable ts rows = .ok (ts.tail.zip rows) := by
  unfold asTable; rw [if_neg (by simp [h])]

theorem freqOk_closes (log : K → K) (tr : KitTrades K) (kind : KitKind K) (c : List Int × List Int)
    (hc : compBarClose log tr kind = .ok c) (bars : List (Ohlcv K)) (hl : bars.length = c.2.length - 1) :
    freqOk kind (c.1.tail.zip bars) = true := by
  cases kind with
  | time I =>
    have hl1 := compBarClose_length log tr _ c hc
    simp only [compBarClose] at hc
    cases hc
    simp only [freqOk]
    rw [List.map_fst_zip (by simp [hl, timeBarIndexer])]
    exact regularIndex_clock_tail _ _
  | _ => rfl

theorem buildOhlcv_spec (log : K → K) (tr : KitTrades K) (kind : KitKind K) (s : BuilderState K)
    (h : BuilderCacheOk log tr kind s) :
    (buildOhlcv log tr kind s).2 = freshOhlcv log tr kind ∧ BuilderCacheOk log tr kind (buildOhlcv log tr kind s).1 ∧
    (∀ t, (buildOhlcv log tr kind s).2 = .ok t → ∃ c bars, compBarClose log tr kind = .ok c ∧
      compBarOhlcv tr.prices tr.amounts c.2 = .ok bars ∧
      (buildOhlcv log tr kind s).1 =
        ⟨some c.1, some c.2, some (bars.map (·.high)), some (bars.map (·.low))⟩) := by
  unfold buildOhlcv freshOhlcv
  rcases setBarClose_spec log tr kind s h with ⟨e, hc, hs⟩ | ⟨c, hc, hs⟩
  · rw [hs, hc]
    refine ⟨rfl, h, ?_⟩
    intro t ht; cases ht
  · rw [hs, hc]
    simp only [Option.getD_some]
    cases hb : compBarOhlcv tr.prices tr.amounts c.2 with
    | error e =>
      refine ⟨rfl, builderCacheOk_closes log tr kind s h c hc, ?_⟩
      intro t ht; cases ht
    | ok bars =>
      have hl := compBarOhlcv_length _ _ _ _ hb
      have hl1 := compBarClose_length log tr kind c hc
      simp only
      rw [asTable_ok c.1 bars (by omega)]
      simp only [freqOk_closes log tr kind c hc bars hl, if_true, true_and]
      refine ⟨⟨Or.inr ⟨c, hc, rfl, rfl⟩, Or.inr ⟨c, bars, hc, hb, rfl, rfl⟩⟩, ?_⟩
      intro t _
      exact ⟨c, bars, rfl, hb, rfl⟩

theorem ensureHighs_spec (log : K → K) (tr : KitTrades K) (kind : KitKind K) (s : BuilderState K)
    (h : BuilderCacheOk log tr kind s) (c : List Int × List Int) (hc : compBarClose log tr kind = .ok c)
    (h1 : s.closeTs = some c.1) (h2 : s.closeIdx = some c.2) :
    (∃ e, compBarOhlcv tr.prices tr.amounts c.2 = .error e ∧ ∃ s', ensureHighs log tr kind s = (s', .error e) ∧
      BuilderCacheOk log tr kind s') ∨
    (∃ bars, compBarOhlcv tr.prices tr.amounts c.2 = .ok bars ∧
      ensureHighs log tr kind s = (⟨some c.1, some c.2, some (bars.map (·.high)), some (bars.map (·.low))⟩, .ok ())) := by
  obtain ⟨b1, b2, b3⟩ := buildOhlcv_spec log tr kind s h
  rcases h.extremes with ⟨hh, hl⟩ | ⟨c', bars, hc', hb, hh, hl⟩
  · unfold ensureHighs
    rw [if_pos (Or.inl hh)]
    cases hbo : compBarOhlcv tr.prices tr.amounts c.2 with
    | error e =>
      left
      refine ⟨e, rfl, (buildOhlcv log tr kind s).1, ?_, b2⟩
      have : (buildOhlcv log tr kind s).2 = .error e := by
        rw [b1]; simp only [freshOhlcv, hc, hbo]
      rw [show buildOhlcv log tr kind s = ((buildOhlcv log tr kind s).1, (buildOhlcv log tr kind s).2) from rfl, this]
    | ok bars =>
      right
      refine ⟨bars, rfl, ?_⟩
      have : (buildOhlcv log tr kind s).2 = .ok (c.1.tail.zip bars) := by
        rw [b1]; simp only [freshOhlcv, hc, hbo]
      obtain ⟨c', bars', hc', hb', hst⟩ := b3 _ this
      rw [hc] at hc'; cases hc'
      rw [hbo] at hb'; cases hb'
      rw [show buildOhlcv log tr kind s = ((buildOhlcv log tr kind s).1, (buildOhlcv log tr kind s).2) from rfl, this,
        hst]
  · right
    rw [hc] at hc'; cases hc'
    refine ⟨bars, hb, ?_⟩
    unfold ensureHighs
    rw [if_neg (by rw [hh, hl]; simp)]
    cases s; simp only at h1 h2 hh hl; subst h1; subst h2; subst hh; subst hl; rfl

/-- The result of a call, from the closes alone. -/
def pureCall (log log1p : K → K) (rndOf : K → K → Int) (inferTick : List K → Except String K) (tr : KitTrades K)
    (kind : KitKind K) (call : KitCall K) : Except String (KitOut K) :=
  match compBarClose log tr kind with
  | .error e => .error e
  | .ok c =>
    match call with
    | .closeIndices => .ok (.ints c.2.tail)
    | .closeTimestamps => .ok (.ints c.1.tail)
    | .ohlcv =>
      match compBarOhlcv tr.prices tr.amounts c.2 with
      | .error e => .error e
      | .ok bars => .ok (.bars (c.1.tail.zip bars))
    | .directional => .ok (.dirs (c.1.tail.zip (compBarDirectional tr.prices tr.amounts tr.sides c.2)))
    | .tradeSize theta mult =>
      match compBarTradeSize log1p tr.amounts theta c.2 mult with
      | .error e => .error e
      | .ok rows =>
        match asTable c.1 rows with
        | .error e => .error e
        | .ok t => .ok (.sizes t)
    | .footprints tick m =>
      match compBarOhlcv tr.prices tr.amounts c.2 with
      | .error e => .error e
      | .ok bars =>
        match chosenTick inferTick tr tick with
        | .error e => .error e
        | .ok t =>
          match compBarFootprints (rndOf t) m tr (closePairs c.2) (bars.map (·.low)) (bars.map (·.high)) with
          | .error e => .error e
          | .ok fps => .ok (.fps c.1.tail t fps)

theorem kitCall_spec (log log1p : K → K) (rndOf : K → K → Int) (inferTick : List K → Except String K)
    (tr : KitTrades K) (kind : KitKind K) (s : BuilderState K) (h : BuilderCacheOk log tr kind s) (call : KitCall K) :
    (kitCall log log1p rndOf inferTick tr kind s call).2 = pureCall log log1p rndOf inferTick tr kind call ∧
    BuilderCacheOk log tr kind (kitCall log log1p rndOf inferTick tr kind s call).1 := by
  unfold pureCall
  cases call with
  | closeIndices =>
    simp only [kitCall]
    rcases h.closes with ⟨h1, h2⟩ | ⟨c, hc, h1, h2⟩
    · rw [if_pos h2]
      rcases setBarClose_spec log tr kind s h with ⟨e, hc, hs⟩ | ⟨c, hc, hs⟩
      · rw [hs, hc]; exact ⟨rfl, h⟩
      · rw [hs, hc]; exact ⟨rfl, builderCacheOk_closes log tr kind s h c hc⟩
    · rw [if_neg (by rw [h2]; simp), hc]; simp only [h2, Option.getD_some, true_and]; exact h
  | closeTimestamps =>
    simp only [kitCall]
    rcases h.closes with ⟨h1, h2⟩ | ⟨c, hc, h1, h2⟩
    · rw [if_pos h1]
      rcases setBarClose_spec log tr kind s h with ⟨e, hc, hs⟩ | ⟨c, hc, hs⟩
      · rw [hs, hc]; exact ⟨rfl, h⟩
      · rw [hs, hc]; exact ⟨rfl, builderCacheOk_closes log tr kind s h c hc⟩
    · rw [if_neg (by rw [h1]; simp), hc]; simp only [h1, Option.getD_some, true_and]; exact h
  | ohlcv =>
    obtain ⟨b1, b2, _⟩ := buildOhlcv_spec log tr kind s h
    simp only [kitCall, tagOut]
    rw [show buildOhlcv log tr kind s = ((buildOhlcv log tr kind s).1, (buildOhlcv log tr kind s).2) from rfl, b1]
    unfold freshOhlcv
    cases hc : compBarClose log tr kind with
    | error e => exact ⟨rfl, b2⟩
    | ok c =>
      simp only
      cases hb : compBarOhlcv tr.prices tr.amounts c.2 with
      | error e => exact ⟨rfl, b2⟩
      | ok bars => exact ⟨rfl, b2⟩
  | directional =>
    simp only [kitCall, tagOut, buildDirectional]
    rcases setBarClose_spec log tr kind s h with ⟨e, hc, hs⟩ | ⟨c, hc, hs⟩
    · rw [hs, hc]; exact ⟨rfl, h⟩
    · have hl1 := compBarClose_length log tr kind c hc
      rw [hs, hc]
      simp only [Option.getD_some]
      rw [asTable_ok _ _ (by simp [compBarDirectional, closePairs_length]; omega)]
      exact ⟨rfl, builderCacheOk_closes log tr kind s h c hc⟩
  | tradeSize theta mult =>
    simp only [kitCall, tagOut, buildTradeSize]
    rcases setBarClose_spec log tr kind s h with ⟨e, hc, hs⟩ | ⟨c, hc, hs⟩
    · rw [hs, hc]; exact ⟨rfl, h⟩
    · rw [hs, hc]
      simp only [Option.getD_some]
      have hk := builderCacheOk_closes log tr kind s h c hc
      cases hz : compBarTradeSize log1p tr.amounts theta c.2 mult with
      | error e => exact ⟨rfl, hk⟩
      | ok rows =>
        simp only
        cases ht : asTable c.1 rows with
        | error e => exact ⟨rfl, hk⟩
        | ok t => exact ⟨rfl, hk⟩
  | footprints tick m =>
    simp only [kitCall, tagOut, buildFootprints]
    rcases setBarClose_spec log tr kind s h with ⟨e, hc, hs⟩ | ⟨c, hc, hs⟩
    · rw [hs, hc]; exact ⟨rfl, h⟩
    · rw [hs, hc]
      simp only
      have hk := builderCacheOk_closes log tr kind s h c hc
      rcases ensureHighs_spec log tr kind _ hk c hc rfl rfl with ⟨e, hb, s', hs', hk'⟩ | ⟨bars, hb, hs'⟩
      · rw [hs', hb]; exact ⟨rfl, hk'⟩
      · rw [hs', hb]
        simp only [Option.getD_some]
        have hk' : BuilderCacheOk log tr kind ⟨some c.1, some c.2, some (bars.map (·.high)), some (bars.map (·.low))⟩ :=
          ⟨Or.inr ⟨c, hc, rfl, rfl⟩, Or.inr ⟨c, bars, hc, hb, rfl, rfl⟩⟩
        cases ht : chosenTick inferTick tr tick with
        | error e => exact ⟨rfl, hk'⟩
        | ok t =>
          simp only
          cases hf : compBarFootprints (rndOf t) m tr (closePairs c.2) (bars.map (·.low)) (bars.map (·.high)) with
          | error e => exact ⟨rfl, hk'⟩
          | ok fps => exact ⟨rfl, hk'⟩

theorem kitAfter_ok (log log1p : K → K) (rndOf : K → K → Int) (inferTick : List K → Except String K)
    (tr : KitTrades K) (kind : KitKind K) (calls : List (KitCall K)) :
    BuilderCacheOk log tr kind (kitAfter log log1p rndOf inferTick tr kind calls) := by
  unfold kitAfter
  suffices hs : ∀ (l : List (KitCall K)) (s : BuilderState K), BuilderCacheOk log tr kind s →
      BuilderCacheOk log tr kind (l.foldl (fun s c => (kitCall log log1p rndOf inferTick tr kind s c).1) s) from
    hs calls _ (builderCacheOk_fresh log tr kind)
  intro l
  induction l with
  | nil => intro s h; exact h
  | cons a l ih => intro s h; exact ih _ (kitCall_spec log log1p rndOf inferTick tr kind s h a).2

/-- **C73.** Whatever calls were made on a builder before — in any order, any number of times, whether or not they
failed — a call returns exactly (or fails exactly with) what it would on a new builder. -/
theorem C73_call_independent_of_history (log log1p : K → K) (rndOf : K → K → Int)
    (inferTick : List K → Except String K) (tr : KitTrades K) (kind : KitKind K) (calls : List (KitCall K))
    (call : KitCall K) :
    (kitCall log log1p rndOf inferTick tr kind (kitAfter log log1p rndOf inferTick tr kind calls) call).2 =
      (kitCall log log1p rndOf inferTick tr kind BuilderState.fresh call).2 := by
  rw [(kitCall_spec log log1p rndOf inferTick tr kind _ (kitAfter_ok log log1p rndOf inferTick tr kind calls) call).1,
    (kitCall_spec log log1p rndOf inferTick tr kind _ (builderCacheOk_fresh log tr kind) call).1]

/- Non-vacuity: footprints first or after the OHLCV table, same result; the builder here has two tick bars. -/
example :
    let tr : KitTrades ℚ := ⟨[0, 1, 2, 3, 4, 5], [10, 11, 10, 12, 11, 11], [1, 2, 1, 1, 3, 1], [1, -1, 1, -1, 1, 1]⟩
    (kitAfter (fun x => x) (fun x => x) (fun t p => (p / t).floor) (fun _ => .ok 1) tr (.tick 3)
      [.directional, .footprints none 3]).closeIdx = some [0, 2, 5] := by decide +kernel

/-! ## C74 -/

/-- Parameters a builder accepts for `n` trades. -/
def KitKind.WellFormed (n : Nat) : KitKind K → Prop
  | .time I => 0 < I
  | .cusum sigma _ _ => sigma.length = n ∧ ∃ s ∈ sigma, s ≠ none
  | _ => True

/-- Bars of this builder end at a trade (all builders except the time-bar builder). -/
def KitKind.closesAtTrades : KitKind K → Prop
  | .time _ => False
  | _ => True

theorem natCloses_valid (idx : List Nat) (n : Nat) (h2 : 2 ≤ idx.length) (hm : idx.Pairwise (· < ·))
    (hu : ∀ x ∈ idx, x < n) : ValidCloses (idx.map (fun i : Nat => (i : Int))) n where
  two := by simpa using h2
  mono := by
    rw [List.pairwise_map]
    exact hm.imp (fun h => by omega)
  lower := by intro x hx; rw [List.mem_map] at hx; obtain ⟨i, _, rfl⟩ := hx; omega
  upper := by intro x hx; rw [List.mem_map] at hx; obtain ⟨i, hi, rfl⟩ := hx; have := hu i hi; omega

theorem closesAt_ok (ts : List Int) (idx : List Nat) (n : Nat) (hn : ts.length = n) (hm : idx.Pairwise (· < ·))
    (hu : ∀ x ∈ idx, x < n) :
    ∃ c, closesAt ts idx = .ok c ∧ c.2 = idx.map (fun i : Nat => (i : Int)) ∧ c.1.length = c.2.length ∧
      (2 ≤ c.2.length → ValidCloses c.2 n) ∧
      ∀ (k : Nat) (i : Int), c.2[k]? = some i → c.1[k]? = ts[i.toNat]? := by
  obtain ⟨r, hr⟩ := takeAt_ok ts idx (by rw [hn]; exact hu)
  obtain ⟨hl, hg⟩ := takeAt_spec ts idx r hr
  refine ⟨(r, idx.map (fun i : Nat => (i : Int))), by unfold closesAt; rw [hr], rfl, by simp [hl], ?_, ?_⟩
  · intro h2
    exact natCloses_valid idx n (by simpa using h2) hm hu
  · intro k i hi
    simp only [List.getElem?_map, Option.map_eq_some_iff] at hi
    obtain ⟨j, hj, rfl⟩ := hi
    obtain ⟨hk, rfl⟩ := List.getElem?_eq_some_iff.mp hj
    simpa using hg k hk

theorem searchRight_le_of_le (a : List Int) {u v : Int} (h : u ≤ v) : searchRight a u ≤ searchRight a v := by
  unfold searchRight
  induction a with
  | nil => simp
  | cons x a ih =>
    by_cases hx : x ≤ u
    · have hx' : x ≤ v := by omega
      simp only [List.takeWhile_cons, hx, hx', decide_true, if_true, List.length_cons]; omega
    · simp [List.takeWhile_cons, hx]

/-- **C74 (closes).** On non-empty trades with columns of equal length, every builder computes its closes; they are
valid close indices whenever there is at least one bar; there is one close timestamp per close index, and for all
builders but the time-bar builder it is the timestamp of the trade at the close index. -/
theorem C74_closes (log : K → K) (tr : KitTrades K) (kind : KitKind K) (n : Nat) (hn : 0 < n)
    (hts : tr.ts.length = n) (hp : tr.prices.length = n) (ha : tr.amounts.length = n) (hwf : kind.WellFormed n) :
    ∃ c, compBarClose log tr kind = .ok c ∧ c.1.length = c.2.length ∧ (2 ≤ c.2.length → ValidCloses c.2 n) ∧
      (kind.closesAtTrades → ∀ (k : Nat) (i : Int), c.2[k]? = some i → c.1[k]? = tr.ts[i.toNat]?) := by
  cases kind with
  | time I =>
    refine ⟨_, rfl, by simp [timeBarIndexer], ?_, fun h => h.elim⟩
    intro h2
    refine ⟨h2, ?_, ?_, ?_⟩
    · simp only [timeBarIndexer, List.pairwise_map]
      unfold timeBarClock arange
      simp only
      rw [List.pairwise_map]
      refine List.Pairwise.imp ?_ List.pairwise_lt_range
      intro a b hab
      have hle : tr.ts.headD 0 / I * I + (a : Int) * I ≤ tr.ts.headD 0 / I * I + (b : Int) * I := by
        have : (a : Int) ≤ b := by omega
        have := mul_le_mul_of_nonneg_right this (le_of_lt hwf)
        omega
      have : searchRight tr.ts (tr.ts.headD 0 / I * I + (a : Int) * I) ≤
          searchRight tr.ts (tr.ts.headD 0 / I * I + (b : Int) * I) := by
        exact searchRight_le_of_le tr.ts hle
      omega
    · intro x hx
      simp only [timeBarIndexer, List.mem_map] at hx
      obtain ⟨c, _, rfl⟩ := hx
      omega
    · intro x hx
      simp only [timeBarIndexer, List.mem_map] at hx
      obtain ⟨c, _, rfl⟩ := hx
      have : searchRight tr.ts c ≤ tr.ts.length := by
        unfold searchRight; exact (List.takeWhile_prefix _).length_le
      omega
  | tick T =>
    have hm : (tickBarIndexer tr.ts T).Pairwise (· < ·) := by
      unfold tickBarIndexer
      rw [List.pairwise_cons]
      exact ⟨fun x hx => by have := tickLoop_mem T _ _ _ x hx; omega, tickLoop_sorted _ _ _ _⟩
    have hu : ∀ x ∈ tickBarIndexer tr.ts T, x < n := by
      intro x hx
      unfold tickBarIndexer at hx
      rcases List.mem_cons.mp hx with rfl | hx
      · exact hn
      · have := tickLoop_mem T _ _ _ x hx
        rw [List.length_tail] at this; omega
    obtain ⟨c, h1, _, h2, h3, h4⟩ := closesAt_ok tr.ts _ n hts hm hu
    exact ⟨c, h1, h2, h3, fun _ => h4⟩
  | volume T =>
    have hm : (volumeBarIndexer tr.amounts T).Pairwise (· < ·) := by
      unfold volumeBarIndexer
      rw [List.pairwise_cons]
      exact ⟨fun x hx => by have := volumeLoop_mem T _ _ _ x hx; omega, volumeLoop_sorted _ _ _ _⟩
    have hu : ∀ x ∈ volumeBarIndexer tr.amounts T, x < n := by
      intro x hx
      unfold volumeBarIndexer at hx
      rcases List.mem_cons.mp hx with rfl | hx
      · exact hn
      · have := volumeLoop_mem T _ _ _ x hx
        rw [List.length_tail] at this; omega
    obtain ⟨c, h1, _, h2, h3, h4⟩ := closesAt_ok tr.ts _ n hts hm hu
    exact ⟨c, h1, h2, h3, fun _ => h4⟩
  | dollar T =>
    have hm : (dollarBarIndexer (tr.prices.zip tr.amounts) T).Pairwise (· < ·) := by
      unfold dollarBarIndexer
      rw [List.pairwise_cons]
      exact ⟨fun x hx => by have := dollarLoop_mem T _ _ _ x hx; omega, dollarLoop_sorted _ _ _ _⟩
    have hu : ∀ x ∈ dollarBarIndexer (tr.prices.zip tr.amounts) T, x < n := by
      intro x hx
      unfold dollarBarIndexer at hx
      rcases List.mem_cons.mp hx with rfl | hx
      · exact hn
      · have := dollarLoop_mem T _ _ _ x hx
        rw [List.length_tail, List.length_zip] at this; omega
    obtain ⟨c, h1, _, h2, h3, h4⟩ := closesAt_ok tr.ts _ n hts hm hu
    exact ⟨c, h1, h2, h3, fun _ => h4⟩
  | cusum sg fl mu =>
    obtain ⟨m, hok, hsort, hmem, _⟩ := C06_cusumBars log tr.ts tr.prices sg fl mu (by rw [hwf.1, hp])
      (by rw [hts, hp]) hwf.2
    have hfl : sg.findIdx (fun s => s.isSome) < n := by
      rw [← hwf.1]
      apply List.findIdx_lt_length_of_exists
      obtain ⟨s, h1, h2⟩ := hwf.2
      exact ⟨s, h1, by cases s <;> simp_all⟩
    have hm : (sg.findIdx (fun s => s.isSome) :: m.map Prod.fst).Pairwise (· < ·) := by
      rw [List.pairwise_cons]
      refine ⟨?_, hsort⟩
      intro x hx
      rw [List.mem_map] at hx
      obtain ⟨y, hy, rfl⟩ := hx
      exact (hmem y hy).1
    have hu : ∀ x ∈ sg.findIdx (fun s => s.isSome) :: m.map Prod.fst, x < n := by
      intro x hx
      rcases List.mem_cons.mp hx with rfl | hx
      · exact hfl
      · rw [List.mem_map] at hx
        obtain ⟨y, hy, rfl⟩ := hx
        rw [← hp]; exact (hmem y hy).2
    obtain ⟨c, h1, _, h2, h3, h4⟩ := closesAt_ok tr.ts _ n hts hm hu
    refine ⟨c, ?_, h2, h3, fun _ => h4⟩
    simp only [compBarClose]
    rw [hok]
    exact h1

example : (KitKind.cusum [none, some (1 / 100 : ℚ), none] 0 1).WellFormed 3 := ⟨rfl, some (1 / 100), by simp, by simp⟩

/-- What the three tables say about one bar is consistent. -/
structure RowsAgree (bar : Ohlcv K) (dir : DirBar K) (fp : Footprint K) : Prop where
  trades_dir : dir.ticksBuy + dir.ticksSell = bar.trades
  volume_dir : dir.volBuy + dir.volSell = bar.volume
  dollars_dir : dir.dolBuy + dir.dolSell = bar.vwap * bar.volume
  trades_fp : (fp.lv.buyTicks.sum + fp.lv.sellTicks.sum : Int) = bar.trades
  buy_fp : fp.lv.buyVol.sum = dir.volBuy
  sell_fp : fp.lv.sellVol.sum = dir.volSell

theorem footprintTrades_sided (prices amounts : List K) (sides : List Int) (a b : Int)
    (hpv : prices.length = amounts.length) (hps : prices.length = sides.length)
    (ha : -1 ≤ a) (hab : a ≤ b) (hb : b < prices.length) :
    footprintTrades prices amounts sides a b =
      (sliceAfter (sidedTrades sides prices amounts) a b).map (fun t => (t.price, t.vol, t.side)) := by
  rw [← dirTicks_sided prices amounts sides a b hpv hps ha hab hb]
  simp only [footprintTrades, dirTicks, List.map_map]
  rfl

theorem rows_agree (rnd : K → Int) (hmono : Monotone rnd) (m : K) (prices amounts : List K) (sides : List Int)
    (a b : Int) (hpv : prices.length = amounts.length) (hps : prices.length = sides.length)
    (ha : -1 ≤ a) (hab : a ≤ b) (hb : b < prices.length) (hv : ∀ v ∈ amounts, 0 ≤ v)
    (hside : ∀ s ∈ sides, s = 1 ∨ s = -1) (fp : Footprint K)
    (hfp : footprintBar rnd m (ohlcvBar prices amounts a b).low (ohlcvBar prices amounts a b).high
      (footprintTrades prices amounts sides a b) = .ok fp) :
    RowsAgree (ohlcvBar prices amounts a b) (dirBar prices amounts sides a b) fp := by
  have hsl : ∀ s ∈ sliceAfter sides a b, s = 1 ∨ s = -1 := fun s hs =>
    hside s (List.mem_of_mem_drop (List.mem_of_mem_take hs))
  obtain ⟨t1, t2, t3⟩ := C10_directional_total prices amounts sides a b hpv hps ha hab hb hsl
  obtain ⟨_, _, s3, s4, _, _⟩ := C10_directional_split prices amounts sides a b hpv hps ha hab hb
  obtain ⟨o1, o2, o3⟩ := ohlcvBar_totals prices amounts a b hpv ha hab hb hv
  have hlen := sliceAfter_length prices a b ha hab hb
  have htr := footprintTrades_sided prices amounts sides a b hpv hps ha hab hb
  have hin : (ohlcvBar prices amounts a b).low ≤ (ohlcvBar prices amounts a b).high ∧
      ∀ t ∈ footprintTrades prices amounts sides a b,
        (ohlcvBar prices amounts a b).low ≤ t.1 ∧ t.1 ≤ (ohlcvBar prices amounts a b).high := by
    rcases eq_or_lt_of_le hab with rfl | hlt
    · refine ⟨by simp [ohlcvBar], ?_⟩
      intro t ht
      rw [htr, sliceAfter_self] at ht
      simp at ht
    · have h := ohlcvBar_nonempty prices amounts a b hpv ha hlt hb
      refine ⟨h.low_min _ h.high_mem, ?_⟩
      intro t ht
      have : t.1 ∈ sliceAfter prices a b := by
        rw [← map_pyGet_idxRange prices 0 a b ha hab hb]
        unfold footprintTrades at ht
        rw [List.mem_map] at ht ⊢
        obtain ⟨j, hj, rfl⟩ := ht
        exact ⟨j, hj, rfl⟩
      exact ⟨h.low_min _ this, h.high_max _ this⟩
  obtain ⟨f1, f2, f3⟩ := C13_footprint_conserves rnd hmono m _ _ _ hin.1 hin.2 fp hfp
  have f3' := f3 (by
    intro t ht
    have : t.2.2 ∈ sliceAfter sides a b := by
      rw [← map_pyGet_idxRange sides 0 a b ha hab (by omega)]
      unfold footprintTrades at ht
      rw [List.mem_map] at ht ⊢
      obtain ⟨j, hj, rfl⟩ := ht
      exact ⟨j, hj, rfl⟩
    exact hsl _ this)
  have hl : ((footprintTrades prices amounts sides a b).length : Int) = b - a := by
    simp only [footprintTrades, List.length_map, idxRange_length]; omega
  have zz : (List.zipWith (· * ·) (sliceAfter prices a b) (sliceAfter amounts a b)) =
      sliceAfter (List.zipWith (· * ·) prices amounts) a b := by
    simp only [sliceAfter, List.drop_zipWith, List.take_zipWith]
  refine ⟨?_, ?_, ?_, ?_, ?_, ?_⟩
  · rw [t1, o2, hlen]; omega
  · rw [t2, o1]
  · rw [t3, o3, zz]
  · rw [f3'.2, hl, o2, hlen]; omega
  · rw [f1, s3, htr, List.filter_map, List.map_map]; rfl
  · rw [f2, s4, htr, List.filter_map, List.map_map]; rfl

theorem compBarFootprints_ok (rnd : K → Int) (hmono : Monotone rnd) (m : K) (tr : KitTrades K)
    (hpv : tr.prices.length = tr.amounts.length) (l : List (Int × Int))
    (hl : ∀ p ∈ l, -1 ≤ p.1 ∧ p.1 ≤ p.2 ∧ p.2 < tr.prices.length) :
    ∃ fps, compBarFootprints rnd m tr l (l.map (fun p => (ohlcvBar tr.prices tr.amounts p.1 p.2).low))
        (l.map (fun p => (ohlcvBar tr.prices tr.amounts p.1 p.2).high)) = .ok fps ∧ fps.length = l.length ∧
      ∀ (k : Nat) (p : Int × Int), l[k]? = some p → ∃ fp, fps[k]? = some fp ∧
        footprintBar rnd m (ohlcvBar tr.prices tr.amounts p.1 p.2).low (ohlcvBar tr.prices tr.amounts p.1 p.2).high
          (footprintTrades tr.prices tr.amounts tr.sides p.1 p.2) = .ok fp := by
  induction l with
  | nil => exact ⟨[], rfl, rfl, by simp⟩
  | cons p l ih =>
    obtain ⟨fps, h1, h2, h3⟩ := ih (fun q hq => hl q (by simp [hq]))
    obtain ⟨p1, p2, p3⟩ := hl p (by simp)
    obtain ⟨fp, hfp⟩ := C13_footprint_accepts_ohlcv rnd hmono m tr.prices tr.amounts tr.sides p.1 p.2 hpv p1 p2 p3
    refine ⟨fp :: fps, ?_, by simp [h2], ?_⟩
    · simp only [List.map_cons, compBarFootprints]
      rw [hfp]
      simp only [h1]
    · intro k q hq
      cases k with
      | zero => simp only [List.getElem?_cons_zero, Option.some.injEq] at hq; subst hq; exact ⟨fp, by simp, hfp⟩
      | succ k => simpa using h3 k q (by simpa using hq)

/-- **C74.** On non-empty trades with columns of equal length, non-negative amounts and sides `±1`, a builder that
has at least one bar succeeds in building the OHLCV, directional and footprint tables.  All three carry the same
close timestamps and have one row per bar; for every bar, the buy and sell trade counts, volumes and dollars of the
directional row add up to the OHLCV row, and the level volumes and counts of the footprint add up to both. -/
theorem C74_tables_agree (log log1p : K → K) (rndOf : K → K → Int) (inferTick : List K → Except String K)
    (tr : KitTrades K) (kind : KitKind K) (n : Nat) (hn : 0 < n)
    (hts : tr.ts.length = n) (hp : tr.prices.length = n) (ha : tr.amounts.length = n) (hsd : tr.sides.length = n)
    (hv : ∀ v ∈ tr.amounts, 0 ≤ v) (hside : ∀ s ∈ tr.sides, s = 1 ∨ s = -1)
    (hwf : kind.WellFormed n) (tick : Option K) (t m : K) (ht : chosenTick inferTick tr tick = .ok t)
    (hmono : Monotone (rndOf t))
    (hbars : ∀ c, compBarClose log tr kind = .ok c → 2 ≤ c.2.length) :
    ∃ (stamps : List Int) (bars : List (Ohlcv K)) (dirs : List (DirBar K)) (fps : List (Footprint K)),
      (kitCall log log1p rndOf inferTick tr kind BuilderState.fresh .ohlcv).2 = .ok (.bars (stamps.zip bars)) ∧
      (kitCall log log1p rndOf inferTick tr kind BuilderState.fresh .directional).2 = .ok (.dirs (stamps.zip dirs)) ∧
      (kitCall log log1p rndOf inferTick tr kind BuilderState.fresh (.footprints tick m)).2 =
        .ok (.fps stamps t fps) ∧
      bars.length = stamps.length ∧ dirs.length = stamps.length ∧ fps.length = stamps.length ∧ 0 < stamps.length ∧
      ∀ (k : Nat) (bar : Ohlcv K) (dir : DirBar K) (fp : Footprint K),
        bars[k]? = some bar → dirs[k]? = some dir → fps[k]? = some fp → RowsAgree bar dir fp := by
  obtain ⟨c, hc, hlen, hval, _⟩ := C74_closes log tr kind n hn hts hp ha hwf
  have h2 := hbars c hc
  have hvc := hval h2
  have hpl : ∀ p ∈ closePairs c.2, -1 ≤ p.1 ∧ p.1 ≤ p.2 ∧ p.2 < tr.prices.length := by
    intro p hpp
    unfold closePairs at hpp
    obtain ⟨i, hi, rfl⟩ := List.getElem_of_mem hpp
    rw [List.length_zip, List.length_tail] at hi
    simp only [List.getElem_zip, List.getElem_tail]
    refine ⟨hvc.lower _ (List.getElem_mem _), ?_, ?_⟩
    · exact List.pairwise_iff_getElem.mp hvc.mono i (i + 1) (by omega) (by omega) (by omega)
    · rw [hp]; exact hvc.upper _ (List.getElem_mem _)
  have hohl : compBarOhlcv tr.prices tr.amounts c.2 =
      .ok ((closePairs c.2).map (fun p => ohlcvBar tr.prices tr.amounts p.1 p.2)) := by
    unfold compBarOhlcv; rw [if_neg (by omega), if_neg (by omega)]
  obtain ⟨fps, hf1, hf2, hf3⟩ := compBarFootprints_ok (rndOf t) hmono m tr (by omega) (closePairs c.2) hpl
  refine ⟨c.1.tail, (closePairs c.2).map (fun p => ohlcvBar tr.prices tr.amounts p.1 p.2),
    compBarDirectional tr.prices tr.amounts tr.sides c.2, fps, ?_, ?_, ?_, ?_, ?_, ?_, ?_, ?_⟩
  · rw [(kitCall_spec log log1p rndOf inferTick tr kind _ (builderCacheOk_fresh log tr kind) _).1]
    simp only [pureCall, hc, hohl]
  · rw [(kitCall_spec log log1p rndOf inferTick tr kind _ (builderCacheOk_fresh log tr kind) _).1]
    simp only [pureCall, hc]
  · rw [(kitCall_spec log log1p rndOf inferTick tr kind _ (builderCacheOk_fresh log tr kind) _).1]
    simp only [pureCall, hc, hohl, ht, List.map_map]
    have := hf1
    simp only [Function.comp_def] at this ⊢
    rw [this]
  · simp [closePairs_length]; omega
  · simp [compBarDirectional, closePairs_length]; omega
  · rw [hf2, closePairs_length, List.length_tail]; omega
  · rw [List.length_tail]; omega
  · intro k bar dir fp hb hd hfk
    simp only [compBarDirectional, List.getElem?_map, Option.map_eq_some_iff] at hb hd
    obtain ⟨p, hp1, rfl⟩ := hb
    obtain ⟨q, hq1, rfl⟩ := hd
    rw [hp1] at hq1; cases hq1
    obtain ⟨fp', h1, h3⟩ := hf3 k p hp1
    rw [hfk] at h1; cases h1
    obtain ⟨p1, p2, p3⟩ := hpl p (List.mem_of_getElem? hp1)
    exact rows_agree (rndOf t) hmono m tr.prices tr.amounts tr.sides p.1 p.2 (by omega) (by omega) p1 p2 p3 hv hside fp h3

/- Non-vacuity: six trades, two tick bars of threshold 3; the builder meets all hypotheses of `C74_tables_agree`. -/
example :
    let tr : KitTrades ℚ := ⟨[0, 1, 2, 3, 4, 5], [10, 11, 10, 12, 11, 11], [1, 2, 1, 1, 3, 1], [1, -1, 1, -1, 1, 1]⟩
    (match compBarClose (fun x => x) tr (.tick 3) with
      | .ok c => decide (c.1 = [0, 2, 5] ∧ c.2 = [0, 2, 5])
      | .error _ => false) = true := by decide +kernel

/-- **C74 (tick bars).** The OHLCV table of a tick-bar builder with threshold `T ≥ 2`: row `k` is stamped with the
time of trade `(k + 1) T - 1` and summarises the `T` trades ending there, except that row 0 summarises only `T - 1`
trades because trade 0 belongs to no bar. -/
theorem C74_tick_table (log log1p : K → K) (rndOf : K → K → Int) (inferTick : List K → Except String K)
    (tr : KitTrades K) (T : Nat) (hT : 2 ≤ T) (hts : tr.ts.length = tr.prices.length)
    (ha : tr.amounts.length = tr.prices.length) (hn : T ≤ tr.prices.length) :
    ∃ rows, (kitCall log log1p rndOf inferTick tr (.tick T) BuilderState.fresh .ohlcv).2 = .ok (.bars rows) ∧
      rows.length = tr.prices.length / T ∧
      ∀ (k : Nat) (hk : k < rows.length),
        tr.ts[(k + 1) * T - 1]? = some rows[k].1 ∧
        rows[k].2.trades = (if k = 0 then T - 1 else T : Nat) ∧
        IsOhlcvOf ((tr.prices.take ((k + 1) * T)).drop (if k = 0 then 1 else k * T))
          ((tr.amounts.take ((k + 1) * T)).drop (if k = 0 then 1 else k * T)) rows[k].2 := by
  have hne : tr.ts ≠ [] := by intro h; rw [h] at hts; simp at hts; omega
  obtain ⟨c, hc, hlen, hval, hstamp⟩ := C74_closes log tr (.tick T) tr.prices.length (by omega) hts rfl ha trivial
  have hc2 : c.2 = (tickBarIndexer tr.ts (T : Int)).map (fun i : Nat => (i : Int)) := by
    simp only [compBarClose, closesAt] at hc
    split at hc
    · cases hc
    · cases hc; rfl
  have hdiv : 1 ≤ tr.ts.length / T := by
    rw [hts]; exact (Nat.one_le_div_iff (by omega)).mpr hn
  rw [C03_tickBars_closed_form tr.ts hne T hT] at hc2
  have hl2 : c.2.length = tr.prices.length / T + 1 := by rw [hc2]; simp [hts]
  have hvc := hval (by rw [hl2]; rw [hts] at hdiv; omega)
  obtain ⟨bars, hb1, hb2, hb3⟩ := C08_ohlcv_rows tr.prices tr.amounts c.2 ha.symm hvc
  have hget : ∀ k : Nat, (h : k + 1 < c.2.length) → c.2[k + 1] = (((k + 1) * T - 1 : Nat) : Int) := by
    intro k h
    simp only [hc2, List.map_cons, List.getElem_cons_succ, List.getElem_map, List.getElem_range]
  have hget0 : (h : 0 < c.2.length) → c.2[0] = 0 := by
    intro h; simp only [hc2, List.map_cons, List.getElem_cons_zero]; rfl
  refine ⟨c.1.tail.zip bars, ?_, ?_, ?_⟩
  · rw [(kitCall_spec log log1p rndOf inferTick tr _ _ (builderCacheOk_fresh log tr _) _).1]
    simp only [pureCall, hc, hb1]
  · rw [List.length_zip, List.length_tail]; omega
  · intro k hk
    rw [List.length_zip, List.length_tail] at hk
    have hk2 : k + 1 < c.2.length := by omega
    simp only [List.getElem_zip, List.getElem_tail]
    obtain ⟨bar, hbar, hnon, _⟩ := hb3 k hk2
    have hbk : bars[k]'(by omega) = bar := by
      rw [List.getElem?_eq_getElem (by omega)] at hbar; exact Option.some.inj hbar
    have hmul : (k + 1) * T = k * T + T := by ring
    have hlt : c.2[k] < c.2[k + 1] := by
      rw [hget k hk2]
      cases k with
      | zero => rw [hget0]; omega
      | succ k => rw [hget k (by omega)]; have : (k + 1 + 1) * T = (k + 1) * T + T := by ring
                  omega
    have hO := hnon hlt
    have hprev : c.2[k] + 1 = ((if k = 0 then 1 else k * T : Nat) : Int) := by
      cases k with
      | zero => rw [hget0]; rfl
      | succ k =>
        rw [hget k (by omega), if_neg (by omega)]
        have : 0 < (k + 1) * T := Nat.mul_pos (by omega) (by omega)
        omega
    have hsl : ∀ xs : List K, sliceAfter xs c.2[k] c.2[k + 1] =
        (xs.take ((k + 1) * T)).drop (if k = 0 then 1 else k * T) := by
      intro xs
      unfold sliceAfter
      rw [hprev, hget k hk2, List.drop_take]
      have e1 : ((((k + 1) * T - 1 : Nat) : Int) - c.2[k]).toNat = (k + 1) * T - (if k = 0 then 1 else k * T) := by
        have := hprev
        have h3 : 0 < (k + 1) * T := Nat.mul_pos (by omega) (by omega)
        split at this <;> omega
      rw [e1]; rfl
    refine ⟨?_, ?_, ?_⟩
    · have := hstamp trivial (k + 1) _ (List.getElem?_eq_getElem hk2)
      rw [hget k hk2, List.getElem?_eq_getElem (by omega)] at this
      simpa using this.symm
    · rw [hbk, hO.trades, sliceAfter_length _ _ _ (hvc.lower _ (List.getElem_mem _)) (le_of_lt hlt)
        (hvc.upper _ (List.getElem_mem _)), hget k hk2]
      have h3 : 0 < (k + 1) * T := Nat.mul_pos (by omega) (by omega)
      split at hprev
      · rename_i h0; subst h0; rw [if_pos rfl]; simp only [Nat.zero_add, Nat.one_mul] at *; omega
      · rename_i h0; rw [if_neg h0]; omega
    · rw [hbk]
      rw [← hsl, ← hsl]
      exact hO

example : let tr : KitTrades ℚ := ⟨[0, 1, 2, 3, 4, 5], [10, 11, 10, 12, 11, 11], [1, 2, 1, 1, 3, 1], [1, -1, 1, -1, 1, 1]⟩
    tr.ts.length = tr.prices.length ∧ tr.amounts.length = tr.prices.length ∧ 3 ≤ tr.prices.length := by decide

theorem searchRight_cons (t : Int) (ts : List Int) (v : Int) :
    searchRight (t :: ts) v = if t ≤ v then searchRight ts v + 1 else 0 := by
  unfold searchRight
  by_cases h : t ≤ v <;> simp [h]

theorem filter_window {α : Type} (ts : List Int) (xs : List α) (hs : ts.Pairwise (· ≤ ·)) (u v : Int) (huv : u ≤ v) :
    (ts.zip xs).filter (fun t => decide (u < t.1 ∧ t.1 ≤ v)) =
      ((ts.zip xs).drop (searchRight ts u)).take (searchRight ts v - searchRight ts u) := by
  induction ts generalizing xs with
  | nil => simp
  | cons t ts ih =>
    cases xs with
    | nil => simp
    | cons x xs =>
      rw [List.pairwise_cons] at hs
      have ih' := ih xs hs.2
      rw [List.zip_cons_cons, List.filter_cons, searchRight_cons, searchRight_cons]
      by_cases h1 : t ≤ u
      · have h2 : t ≤ v := by omega
        rw [if_neg (by simp; omega), if_pos h1, if_pos h2, ih']
        simp
      · rw [if_neg h1]
        have h0 : searchRight ts u = 0 := by
          cases ts with
          | nil => rfl
          | cons a ts =>
            have := hs.1 a (by simp)
            rw [searchRight_cons, if_neg (by omega)]
        rw [h0] at ih'
        by_cases h2 : t ≤ v
        · rw [if_pos (by simp; omega), if_pos h2, ih']
          simp
        · rw [if_neg (by simp; omega), if_neg h2]
          have h3 : searchRight ts v = 0 := by
            cases ts with
            | nil => rfl
            | cons a ts =>
              have := hs.1 a (by simp)
              rw [searchRight_cons, if_neg (by omega)]
          rw [ih', h3]; simp

/-- The values (prices, amounts) of the trades with timestamps in `(u, v]`. -/
def tradesIn {α : Type} (ts : List Int) (xs : List α) (u v : Int) : List α :=
  ((ts.zip xs).filter (fun t => decide (u < t.1 ∧ t.1 ≤ v))).map Prod.snd

theorem tradesIn_slice {α : Type} (ts : List Int) (xs : List α) (hl : ts.length = xs.length)
    (hs : ts.Pairwise (· ≤ ·)) (u v : Int) (huv : u ≤ v) :
    tradesIn ts xs u v = sliceAfter xs ((searchRight ts u : Int) - 1) ((searchRight ts v : Int) - 1) := by
  unfold tradesIn sliceAfter
  rw [filter_window ts xs hs u v huv, List.map_take, List.map_drop, List.map_snd_zip (by omega)]
  congr 1
  · omega
  · congr 1; omega

/-- **C74 (time bars).** The OHLCV table of a time-bar builder on time-ordered trades: the stamps are consecutive
multiples of the interval, and the row stamped `s` summarises exactly the trades with timestamps in `(s - I, s]`, if
there are any; otherwise its volume and trade count are zero. -/
theorem C74_time_table (log log1p : K → K) (rndOf : K → K → Int) (inferTick : List K → Except String K)
    (tr : KitTrades K) (I : Int) (hI : 0 < I) (hne : tr.ts ≠ []) (hs : tr.ts.Pairwise (· ≤ ·))
    (hts : tr.ts.length = tr.prices.length) (ha : tr.amounts.length = tr.prices.length) :
    ∃ rows, (kitCall log log1p rndOf inferTick tr (.time I) BuilderState.fresh .ohlcv).2 = .ok (.bars rows) ∧
      0 < rows.length ∧
      (∀ (k : Nat) (h : k + 1 < rows.length), rows[k + 1].1 = rows[k].1 + I) ∧
      ∀ row ∈ rows, I ∣ row.1 ∧
        (tradesIn tr.ts tr.prices (row.1 - I) row.1 ≠ [] →
          IsOhlcvOf (tradesIn tr.ts tr.prices (row.1 - I) row.1) (tradesIn tr.ts tr.amounts (row.1 - I) row.1) row.2) ∧
        (tradesIn tr.ts tr.prices (row.1 - I) row.1 = [] → row.2.volume = 0 ∧ row.2.trades = 0) := by
  have hpos : 0 < tr.prices.length := by
    rw [← hts]; exact List.length_pos_iff.mpr hne
  obtain ⟨c, hc, hlen, hval, _⟩ := C74_closes log tr (.time I) tr.prices.length hpos hts rfl ha hI
  have hC := C01_timeBars_clock tr.ts I hI hne hs
  simp only at hC
  obtain ⟨hdvd, hstep, _, _, _⟩ := hC
  have hcl := timeBarClock_length_pos tr.ts I hI hne hs
  have hc1 : c.1 = timeBarClock tr.ts I := by simp only [compBarClose] at hc; cases hc; rfl
  have hc2 : c.2 = c.1.map (fun x => (searchRight tr.ts x : Int) - 1) := by
    simp only [compBarClose] at hc; cases hc; rfl
  have hfst : (timeBarIndexer tr.ts I).1 = c.1 := by rw [hc1]; rfl
  rw [hfst] at hdvd
  simp only [hfst] at hstep
  have hvc := hval (by rw [← hlen, hc1]; omega)
  have hb1 : compBarOhlcv tr.prices tr.amounts c.2 =
      .ok ((closePairs c.2).map (fun p => ohlcvBar tr.prices tr.amounts p.1 p.2)) := by
    have := hvc.two
    unfold compBarOhlcv; rw [if_neg (by omega), if_neg (by omega)]
  refine ⟨c.1.tail.zip ((closePairs c.2).map (fun p => ohlcvBar tr.prices tr.amounts p.1 p.2)), ?_, ?_, ?_, ?_⟩
  · rw [(kitCall_spec log log1p rndOf inferTick tr _ _ (builderCacheOk_fresh log tr _) _).1]
    simp only [pureCall, hc, hb1]
  · rw [List.length_zip, List.length_tail, List.length_map, closePairs_length, ← hlen, hc1]; omega
  · intro k h
    rw [List.length_zip, List.length_tail, List.length_map, closePairs_length] at h
    simp only [List.getElem_zip, List.getElem_tail]
    exact hstep (k + 1) (by omega)
  · intro row hrow
    obtain ⟨k, hk, rfl⟩ := List.getElem_of_mem hrow
    rw [List.length_zip, List.length_tail, List.length_map, closePairs_length] at hk
    simp only [List.getElem_zip, List.getElem_tail, List.getElem_map, closePairs]
    have hst := hstep k (by omega)
    have hprev : c.1[k + 1] - I = c.1[k] := by omega
    have e1 : c.2[k] = (searchRight tr.ts c.1[k] : Int) - 1 := by simp only [hc2, List.getElem_map]
    have e2 : c.2[k + 1] = (searchRight tr.ts c.1[k + 1] : Int) - 1 := by simp only [hc2, List.getElem_map]
    rw [hprev, tradesIn_slice tr.ts tr.prices hts hs _ _ (by omega),
      tradesIn_slice tr.ts tr.amounts (by omega) hs _ _ (by omega), ← e1, ← e2]
    have hl := hvc.lower c.2[k] (List.getElem_mem _)
    have hu := hvc.upper c.2[k + 1] (List.getElem_mem _)
    have hm : c.2[k] ≤ c.2[k + 1] := List.pairwise_iff_getElem.mp hvc.mono k (k + 1) (by omega) (by omega) (by omega)
    have hsl := sliceAfter_length tr.prices _ _ hl hm hu
    refine ⟨hdvd _ (List.getElem_mem _), ?_, ?_⟩
    · intro hne'
      refine ohlcvBar_nonempty tr.prices tr.amounts _ _ ha.symm hl ?_ hu
      rcases eq_or_lt_of_le hm with h | h
      · exfalso; apply hne'; rw [← h, sliceAfter_self]
      · exact h
    · intro he
      rw [he] at hsl
      have : c.2[k] = c.2[k + 1] := by simp at hsl; omega
      unfold ohlcvBar
      rw [if_pos this]
      exact ⟨rfl, rfl⟩

/- Non-vacuity: trades at 1, 2 and 12 with interval 5: bars stamped 5, 10, 15, 20, the second and the last empty. -/
example :
    let tr : KitTrades ℚ := ⟨[1, 2, 12], [10, 11, 10], [1, 2, 1], [1, -1, 1]⟩
    (match (buildOhlcv (fun x => x) tr (.time 5) BuilderState.fresh).2 with
      | .ok t => decide (t.map (fun r => (r.1, r.2.volume, r.2.trades)) = [(5, 3, 2), (10, 0, 0), (15, 1, 1), (20, 0, 0)])
      | .error _ => false) = true := by decide +kernel

end FinML

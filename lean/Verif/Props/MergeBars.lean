/-
C102 (time bars do not depend on whether split trades were merged).  `finmlkit/bar/utils.py:merge_split_trades` followed
by `finmlkit/bar/kit.py:TimeBarKit`.
-/
import Verif.Props.Merge
import Verif.Props.BarKit

set_option linter.unusedSectionVars false

namespace FinML

variable {K : Type} [Field K] [LinearOrder K] [IsStrictOrderedRing K]

/-! ## Specification -/

/-- The trades table before merging; the side comes from the maker flag. -/
def rawTable (l : List (RawTrade K)) : KitTrades K :=
  ⟨l.map (·.ts), l.map (·.price), l.map (·.amount), l.map (fun t => if t.maker then -1 else 1)⟩

/-- The trades table after merging. -/
def mergedTable (l : List (MTrade K)) : KitTrades K :=
  ⟨l.map (·.ts), l.map (·.price), l.map (·.amount), l.map (·.side)⟩

/-- `m` is the bar `r` up to a price difference of `d`: merging can only lower the high and raise the low, the volume is
the same, and the number of trades can only fall, though not to zero. -/
structure BarNear (d : K) (r m : Ohlcv K) : Prop where
  opn : |r.opn - m.opn| ≤ d
  high : m.high ≤ r.high + d ∧ r.high ≤ m.high + d
  low : m.low ≤ r.low + d ∧ r.low ≤ m.low + d
  close : |r.close - m.close| ≤ d
  volume : m.volume = r.volume
  vwap : |r.vwap - m.vwap| ≤ d
  trades : m.trades ≤ r.trades
  empty : m.trades = 0 ↔ r.trades = 0

/-- Mergeable prices of the input differ by at most `d`. -/
def PriceSlack (tol d : K) (input : List (RawTrade K)) : Prop :=
  0 ≤ d ∧ ∀ a ∈ input, ∀ b ∈ input, |b.price - a.price| < tol → |b.price - a.price| ≤ d

/-! ## Lemmas -/

/-- A block and its merged trade, with the price slack worked out. -/
structure NearRep (d : K) (withSide : Bool) (b : List (RawTrade K)) (m : MTrade K) : Prop where
  nonempty : b ≠ []
  ts : ∀ x ∈ b, x.ts = m.ts
  first : ∀ h ∈ b.head?, m.price = h.price
  price : ∀ x ∈ b, |x.price - m.price| ≤ d
  amount : m.amount = (b.map (·.amount)).sum
  side : withSide = true → ∀ x ∈ b, m.side = if x.maker then -1 else 1

theorem nearRep_of (tol d : K) (withSide : Bool) (bs : List (List (RawTrade K))) (ms : List (MTrade K))
    (hf : List.Forall₂ (Represents tol withSide) bs ms) (hd : PriceSlack tol d bs.flatten) :
    List.Forall₂ (NearRep d withSide) bs ms := by
  induction hf with
  | nil => exact List.Forall₂.nil
  | @cons b m bs ms hbm _ ih =>
    refine List.Forall₂.cons ?_ (ih ⟨hd.1, fun a ha c hc => hd.2 a (by rw [List.flatten_cons]; simp [ha]) c
      (by rw [List.flatten_cons]; simp [hc])⟩)
    refine ⟨hbm.nonempty, hbm.ts, hbm.price, ?_, hbm.amount, hbm.side⟩
    intro x hx
    cases b with
    | nil => simp at hx
    | cons h tl =>
      rw [hbm.price h (by simp)]
      rcases List.mem_cons.mp hx with rfl | hx'
      · simpa using hd.1
      · have := hbm.uniform h (by simp) x (by simpa using hx')
        exact hd.2 h (by simp) x (by simp [hx']) this.2.1

/-- Selecting trades by timestamp selects whole blocks. -/
theorem nearRep_filter (d : K) (withSide : Bool) (P : Int → Bool) (bs : List (List (RawTrade K)))
    (ms : List (MTrade K)) (hf : List.Forall₂ (NearRep d withSide) bs ms) :
    ∃ bs', bs'.flatten = bs.flatten.filter (fun t => P t.ts) ∧
      List.Forall₂ (NearRep d withSide) bs' (ms.filter (fun t => P t.ts)) := by
  induction hf with
  | nil => exact ⟨[], rfl, List.Forall₂.nil⟩
  | @cons b m bs ms hbm _ ih =>
    obtain ⟨bs', e, hf'⟩ := ih
    cases hP : P m.ts with
    | true =>
      refine ⟨b :: bs', ?_, ?_⟩
      · have hb : b.filter (fun t => P t.ts) = b :=
          List.filter_eq_self.mpr (fun x hx => by rw [hbm.ts x hx]; exact hP)
        rw [List.flatten_cons, e, List.flatten_cons, List.filter_append, hb]
      · rw [List.filter_cons_of_pos (p := fun t : MTrade K => P t.ts) hP]; exact List.Forall₂.cons hbm hf'
    | false =>
      refine ⟨bs', ?_, ?_⟩
      · have hb : b.filter (fun t => P t.ts) = [] :=
          List.filter_eq_nil_iff.mpr (fun x hx => by rw [hbm.ts x hx, hP]; simp)
        rw [e, List.flatten_cons, List.filter_append, hb, List.nil_append]
      · rw [List.filter_cons_of_neg (p := fun t : MTrade K => P t.ts) (by rw [hP]; simp)]; exact hf'

theorem nearRep_side (d : K) (s : Int) (bs : List (List (RawTrade K)))
    (ms : List (MTrade K)) (hf : List.Forall₂ (NearRep d true) bs ms) :
    ∃ bs', bs'.flatten = bs.flatten.filter (fun t => decide ((if t.maker then (-1 : Int) else 1) = s)) ∧
      List.Forall₂ (NearRep d true) bs' (ms.filter (fun t => decide (t.side = s))) := by
  induction hf with
  | nil => exact ⟨[], rfl, List.Forall₂.nil⟩
  | @cons b m bs ms hbm _ ih =>
    obtain ⟨bs', e, hf'⟩ := ih
    by_cases hP : m.side = s
    · refine ⟨b :: bs', ?_, ?_⟩
      · have hb : b.filter (fun t => decide ((if t.maker then (-1 : Int) else 1) = s)) = b :=
          List.filter_eq_self.mpr (fun x hx => by rw [← hbm.side rfl x hx]; simpa using hP)
        rw [List.flatten_cons, e, List.flatten_cons, List.filter_append, hb]
      · rw [List.filter_cons_of_pos (by simpa using hP)]; exact List.Forall₂.cons hbm hf'
    · refine ⟨bs', ?_, ?_⟩
      · have hb : b.filter (fun t => decide ((if t.maker then (-1 : Int) else 1) = s)) = [] :=
          List.filter_eq_nil_iff.mpr (fun x hx => by rw [← hbm.side rfl x hx]; simpa using hP)
        rw [e, List.flatten_cons, List.filter_append, hb, List.nil_append]
      · rw [List.filter_cons_of_neg (by simpa using hP)]; exact hf'

section Blocks

variable {d : K} {withSide : Bool} {bs : List (List (RawTrade K))} {ms : List (MTrade K)}

theorem nearRep_nil (hf : List.Forall₂ (NearRep d withSide) bs ms) : bs.flatten = [] ↔ ms = [] := by
  cases hf with
  | nil => simp
  | @cons b m bs ms hbm _ => simp [hbm.nonempty]

theorem nearRep_length (hf : List.Forall₂ (NearRep d withSide) bs ms) : ms.length ≤ bs.flatten.length := by
  induction hf with
  | nil => simp
  | @cons b m bs ms hbm _ ih =>
    have := List.length_pos_of_ne_nil hbm.nonempty
    rw [List.flatten_cons, List.length_append, List.length_cons]; omega

theorem nearRep_head (hf : List.Forall₂ (NearRep d withSide) bs ms) (x : RawTrade K) (m : MTrade K)
    (hx : bs.flatten.head? = some x) (hm : ms.head? = some m) : x.ts = m.ts ∧ x.price = m.price := by
  cases hf with
  | nil => simp at hm
  | @cons b m' bs ms hbm _ =>
    cases b with
    | nil => exact absurd rfl hbm.nonempty
    | cons h tl =>
      simp at hx hm
      subst hx; subst hm
      exact ⟨hbm.ts _ (by simp), (hbm.first _ (by simp)).symm⟩

theorem nearRep_last (hf : List.Forall₂ (NearRep d withSide) bs ms) (x : RawTrade K) (m : MTrade K)
    (hx : bs.flatten.getLast? = some x) (hm : ms.getLast? = some m) : x.ts = m.ts ∧ |x.price - m.price| ≤ d := by
  induction hf with
  | nil => simp at hm
  | @cons b m' bs ms hbm hrest ih =>
    by_cases he : ms = []
    · have hb := (nearRep_nil hrest).mpr he
      subst he
      simp at hm; subst hm
      rw [List.flatten_cons, hb, List.append_nil] at hx
      have := List.mem_of_getLast? hx
      exact ⟨hbm.ts _ this, hbm.price _ this⟩
    · have hb : bs.flatten ≠ [] := fun h => he ((nearRep_nil hrest).mp h)
      apply ih
      · rw [List.flatten_cons, List.getLast?_append_of_ne_nil _ hb] at hx; exact hx
      · rw [List.getLast?_cons, List.getLast?_eq_some_getLast he] at hm
        rw [List.getLast?_eq_some_getLast he]; simpa using hm

theorem nearRep_mem_left (hf : List.Forall₂ (NearRep d withSide) bs ms) :
    ∀ x ∈ bs.flatten, ∃ m ∈ ms, |x.price - m.price| ≤ d := by
  induction hf with
  | nil => simp
  | @cons b m bs ms hbm _ ih =>
    intro x hx
    rw [List.flatten_cons, List.mem_append] at hx
    rcases hx with hx | hx
    · exact ⟨m, by simp, hbm.price x hx⟩
    · obtain ⟨n, hn, h⟩ := ih x hx
      exact ⟨n, by simp [hn], h⟩

theorem nearRep_mem_right (hf : List.Forall₂ (NearRep d withSide) bs ms) :
    ∀ m ∈ ms, ∃ x ∈ bs.flatten, x.price = m.price := by
  induction hf with
  | nil => simp
  | @cons b m bs ms hbm _ ih =>
    intro n hn
    rcases List.mem_cons.mp hn with rfl | hn
    · cases b with
      | nil => exact absurd rfl hbm.nonempty
      | cons h tl => exact ⟨h, by simp, (hbm.first h (by simp)).symm⟩
    · obtain ⟨x, hx, h⟩ := ih n hn
      exact ⟨x, by rw [List.flatten_cons]; simp [hx], h⟩

theorem nearRep_amount (hf : List.Forall₂ (NearRep d withSide) bs ms) :
    (ms.map (·.amount)).sum = (bs.flatten.map (·.amount)).sum := by
  induction hf with
  | nil => rfl
  | @cons b m bs ms hbm _ ih =>
    rw [List.map_cons, List.sum_cons, List.flatten_cons, List.map_append, List.sum_append, ih, hbm.amount]

theorem nearRep_dollar (hf : List.Forall₂ (NearRep d withSide) bs ms)
    (hv : ∀ x ∈ bs.flatten, 0 ≤ x.amount) :
    |(bs.flatten.map (fun t => t.price * t.amount)).sum - (ms.map (fun t => t.price * t.amount)).sum| ≤
      d * (bs.flatten.map (·.amount)).sum := by
  induction hf with
  | nil => simp
  | @cons b m bs ms hbm _ ih =>
    have ih' := ih (fun x hx => hv x (by rw [List.flatten_cons]; simp [hx]))
    have hb : ∀ c : List (RawTrade K), (∀ x ∈ c, 0 ≤ x.amount ∧ |x.price - m.price| ≤ d) →
        |(c.map (fun t => t.price * t.amount)).sum - m.price * (c.map (·.amount)).sum| ≤ d * (c.map (·.amount)).sum := by
      intro c
      induction c with
      | nil => intro _; simp
      | cons x c ihc =>
        intro hc
        have h1 := ihc (fun y hy => hc y (by simp [hy]))
        obtain ⟨h2, h3⟩ := hc x (by simp)
        simp only [List.map_cons, List.sum_cons]
        rw [abs_le] at h1 h3 ⊢
        constructor
        · nlinarith [mul_nonneg (show (0 : K) ≤ x.price - m.price + d by linarith [h3.1]) h2]
        · nlinarith [mul_nonneg (show (0 : K) ≤ d - (x.price - m.price) by linarith [h3.2]) h2]
    have h1 := hb b (fun x hx => ⟨hv x (by rw [List.flatten_cons]; simp [hx]), hbm.price x hx⟩)
    rw [List.map_cons, List.sum_cons, List.flatten_cons, List.map_append, List.sum_append, List.map_append,
      List.sum_append, hbm.amount]
    rw [abs_le] at h1 ih' ⊢
    constructor <;> linarith [h1.1, h1.2, ih'.1, ih'.2]

/-- The summary of a run of trades and the summary of its merge. -/
theorem barNear_of (hf : List.Forall₂ (NearRep d withSide) bs ms) (hd : 0 ≤ d)
    (hv : ∀ x ∈ bs.flatten, 0 ≤ x.amount) (r r' : Ohlcv K)
    (h : IsOhlcvOf (bs.flatten.map (·.price)) (bs.flatten.map (·.amount)) r)
    (h' : IsOhlcvOf (ms.map (·.price)) (ms.map (·.amount)) r') : BarNear d r r' := by
  have hvol : r'.volume = r.volume := by rw [h.volume, h'.volume, nearRep_amount hf]
  have hnr : bs.flatten ≠ [] := by
    intro e; have := h.opn; rw [e] at this; simp at this
  have hnm : ms ≠ [] := fun e => hnr ((nearRep_nil hf).mpr e)
  refine ⟨?_, ⟨?_, ?_⟩, ⟨?_, ?_⟩, ?_, hvol, ?_, ?_, ?_⟩
  · have e1 := h.opn
    have e2 := h'.opn
    rw [List.head?_map] at e1 e2
    rw [List.head?_eq_some_head hnr, Option.map_some] at e1
    rw [List.head?_eq_some_head hnm, Option.map_some] at e2
    have := (nearRep_head hf _ _ (List.head?_eq_some_head hnr) (List.head?_eq_some_head hnm)).2
    rw [← Option.some.inj e1, ← Option.some.inj e2, this]
    simpa using hd
  · obtain ⟨m, hm, e⟩ := List.mem_map.mp h'.high_mem
    obtain ⟨x, hx, ex⟩ := nearRep_mem_right hf m hm
    have := h.high_max x.price (List.mem_map.mpr ⟨x, hx, rfl⟩)
    rw [← e, ← ex]; linarith
  · obtain ⟨x, hx, e⟩ := List.mem_map.mp h.high_mem
    obtain ⟨m, hm, ex⟩ := nearRep_mem_left hf x hx
    have := h'.high_max m.price (List.mem_map.mpr ⟨m, hm, rfl⟩)
    rw [← e]; linarith [(abs_le.mp ex).2]
  · obtain ⟨x, hx, e⟩ := List.mem_map.mp h.low_mem
    obtain ⟨m, hm, ex⟩ := nearRep_mem_left hf x hx
    have := h'.low_min m.price (List.mem_map.mpr ⟨m, hm, rfl⟩)
    rw [← e]; linarith [(abs_le.mp ex).1]
  · obtain ⟨m, hm, e⟩ := List.mem_map.mp h'.low_mem
    obtain ⟨x, hx, ex⟩ := nearRep_mem_right hf m hm
    have := h.low_min x.price (List.mem_map.mpr ⟨x, hx, rfl⟩)
    rw [← e, ← ex]; linarith
  · have e1 := h.close
    have e2 := h'.close
    rw [List.getLast?_map] at e1 e2
    rw [List.getLast?_eq_some_getLast hnr, Option.map_some] at e1
    rw [List.getLast?_eq_some_getLast hnm, Option.map_some] at e2
    have := (nearRep_last hf _ _ (List.getLast?_eq_some_getLast hnr) (List.getLast?_eq_some_getLast hnm)).2
    rw [← Option.some.inj e1, ← Option.some.inj e2]; exact this
  · have hs := nearRep_amount hf
    have hD := nearRep_dollar hf hv
    rcases lt_or_ge 0 (bs.flatten.map (·.amount)).sum with hp | hn
    · have w1 := h.vwap hp
      have w2 := h'.vwap (by rw [hs]; exact hp)
      rw [List.zipWith_map, List.zipWith_self] at w1 w2
      rw [← w1, ← w2, hs, ← sub_mul, abs_mul, abs_of_pos hp] at hD
      exact le_of_mul_le_mul_right hD hp
    · rw [h.vwap_zero hn, h'.vwap_zero (by rw [hs]; exact hn)]; simpa using hd
  · rw [h.trades, h'.trades, List.length_map, List.length_map]
    exact_mod_cast nearRep_length hf
  · rw [h.trades, h'.trades, List.length_map, List.length_map]
    have h1 := List.length_pos_of_ne_nil hnr
    have h2 := List.length_pos_of_ne_nil hnm
    omega

end Blocks

/-- What a builder reads at the last trade at or before `v`. -/
theorem pyGet_searchRight {α : Type} (l : List α) (ts : α → Int) (f : α → K) (hs : (l.map ts).Pairwise (· ≤ ·)) (v : Int)
    (hl : l ≠ []) :
    ∃ x ∈ (if l.filter (fun t => decide (ts t ≤ v)) = [] then l else l.filter (fun t => decide (ts t ≤ v))).getLast?,
      pyGet (l.map f) 0 ((searchRight (l.map ts) v : Int) - 1) = f x := by
  have hfil : l.filter (fun t => decide (ts t ≤ v)) = l.take (searchRight (l.map ts) v) := by
    clear hl
    induction l with
    | nil => simp
    | cons a l ih =>
      rw [List.map_cons, List.pairwise_cons] at hs
      rw [List.map_cons, searchRight_cons, List.filter_cons]
      by_cases h : ts a ≤ v
      · rw [if_pos (by simpa using h), if_pos h, ih hs.2, List.take_succ_cons]
      · rw [if_neg (by simpa using h), if_neg h, List.take_zero, List.filter_eq_nil_iff]
        intro x hx
        have := hs.1 (ts x) (List.mem_map.mpr ⟨x, hx, rfl⟩)
        simp; omega
  have hle := searchRight_le_length (l.map ts) v
  rw [List.length_map] at hle
  have hpos := List.length_pos_of_ne_nil hl
  set n := searchRight (l.map ts) v with hn
  rw [hfil]
  by_cases h0 : n = 0
  · rw [h0, List.take_zero, if_pos rfl]
    refine ⟨l.getLast hl, List.getLast?_eq_some_getLast hl, ?_⟩
    unfold pyGet
    rw [if_pos (by decide), List.length_map, List.getD_eq_getElem?_getD, List.getElem?_map,
      List.getLast_eq_getElem, show ((l.length : Int) + (((0 : Nat) : Int) - 1)).toNat = l.length - 1 by
        push_cast; omega,
      List.getElem?_eq_getElem (by omega)]
    rfl
  · have hne : l.take n ≠ [] := by
      intro e; have := congrArg List.length e; rw [List.length_take, List.length_nil] at this; omega
    rw [if_neg hne]
    refine ⟨(l.take n).getLast hne, List.getLast?_eq_some_getLast hne, ?_⟩
    rw [pyGet_getElem _ _ _ (by omega) (by rw [List.length_map]; omega), List.getElem_map,
      List.getLast_eq_getElem, List.getElem_take]
    congr 2
    rw [List.length_take]; omega

/-- The bar built from the trades in `(u, v]`. -/
theorem windowBar_cases {α : Type} (l : List α) (ts : α → Int) (f g : α → K) (hs : (l.map ts).Pairwise (· ≤ ·))
    (u v : Int) (huv : u ≤ v) :
    let row := ohlcvBar (l.map f) (l.map g) ((searchRight (l.map ts) u : Int) - 1) ((searchRight (l.map ts) v : Int) - 1)
    let w := l.filter (fun t => decide (u < ts t ∧ ts t ≤ v))
    (w ≠ [] → IsOhlcvOf (w.map f) (w.map g) row) ∧
    (w = [] → ∀ p, p = pyGet (l.map f) 0 ((searchRight (l.map ts) v : Int) - 1) →
      row = { opn := p, high := p, low := p, close := p, volume := 0, vwap := 0, trades := 0, median := 0 }) := by
  intro row w
  have hwin : ∀ q : α → K, tradesIn (l.map ts) (l.map q) u v = w.map q := by
    intro q
    unfold tradesIn
    rw [List.zip_map', List.filter_map, List.map_map]
    rfl
  have hsl : ∀ q : α → K, w.map q = sliceAfter (l.map q) ((searchRight (l.map ts) u : Int) - 1)
      ((searchRight (l.map ts) v : Int) - 1) := by
    intro q
    rw [← hwin, tradesIn_slice _ _ (by simp) hs u v huv]
  have hle := searchRight_le_of_le (l.map ts) huv
  have hub := searchRight_le_length (l.map ts) v
  rw [List.length_map] at hub
  have hlen := sliceAfter_length (l.map f) ((searchRight (l.map ts) u : Int) - 1) ((searchRight (l.map ts) v : Int) - 1)
    (by omega) (by omega) (by rw [List.length_map]; omega)
  rw [← hsl f, List.length_map] at hlen
  constructor
  · intro hw
    rw [hsl f, hsl g]
    have := List.length_pos_of_ne_nil hw
    exact ohlcvBar_nonempty _ _ _ _ (by simp) (by omega) (by omega) (by rw [List.length_map]; omega)
  · intro hw p hp
    rw [hw] at hlen
    simp only [List.length_nil] at hlen
    simp only [row]
    unfold ohlcvBar
    rw [if_pos (by omega), ← hp]

theorem merge_clock (tol : K) (withSide : Bool) (input : List (RawTrade K)) (out : List (MTrade K)) (I : Int)
    (h : IsMergeOf tol withSide input out) :
    timeBarClock (out.map (·.ts)) I = timeBarClock (input.map (·.ts)) I := by
  obtain ⟨blocks, rfl, hf, -⟩ := h
  have hsl : ∃ d, PriceSlack tol d blocks.flatten := by
    refine ⟨|tol|, abs_nonneg _, fun a _ b _ hlt => le_of_lt (lt_of_lt_of_le hlt (le_abs_self _))⟩
  obtain ⟨d, hd⟩ := hsl
  have hn := nearRep_of tol d withSide blocks out hf hd
  by_cases he : out = []
  · rw [(nearRep_nil hn).mpr he, he]; rfl
  · have hb : blocks.flatten ≠ [] := fun e => he ((nearRep_nil hn).mp e)
    have h1 := (nearRep_head hn _ _ (List.head?_eq_some_head hb) (List.head?_eq_some_head he)).1
    have h2 := (nearRep_last hn _ _ (List.getLast?_eq_some_getLast hb) (List.getLast?_eq_some_getLast he)).1
    have e1 : (out.map (·.ts)).headD 0 = (blocks.flatten.map (·.ts)).headD 0 := by
      rw [List.headD_eq_head?_getD, List.headD_eq_head?_getD, List.head?_map, List.head?_map,
        List.head?_eq_some_head he, List.head?_eq_some_head hb]
      simp [h1]
    have e2 : (out.map (·.ts)).getLastD 0 = (blocks.flatten.map (·.ts)).getLastD 0 := by
      rw [List.getLastD_eq_getLast?, List.getLastD_eq_getLast?, List.getLast?_map, List.getLast?_map,
        List.getLast?_eq_some_getLast he, List.getLast?_eq_some_getLast hb]
      simp [h2]
    unfold timeBarClock
    rw [e1, e2]

/-- The OHLCV table of a time-bar builder as a list over the clock. -/
theorem time_table_eq (log log1p : K → K) (rndOf : K → K → Int) (inferTick : List K → Except String K)
    (tr : KitTrades K) (I : Int) (hI : 0 < I) (hne : tr.ts ≠ []) (hs : tr.ts.Pairwise (· ≤ ·))
    (ha : tr.amounts.length = tr.prices.length) :
    (kitCall log log1p rndOf inferTick tr (.time I) BuilderState.fresh .ohlcv).2 =
      .ok (.bars (((timeBarClock tr.ts I).zip (timeBarClock tr.ts I).tail).map (fun c =>
        (c.2, ohlcvBar tr.prices tr.amounts ((searchRight tr.ts c.1 : Int) - 1) ((searchRight tr.ts c.2 : Int) - 1))))) := by
  have hcl := timeBarClock_length_pos tr.ts I hI hne hs
  rw [(kitCall_spec log log1p rndOf inferTick tr _ _ (builderCacheOk_fresh log tr _) _).1]
  simp only [pureCall, compBarClose, timeBarIndexer, compBarOhlcv]
  rw [if_neg (by omega), if_neg (by rw [List.length_map]; omega)]
  simp only [Except.ok.injEq, KitOut.bars.injEq]
  apply List.ext_getElem
  · simp [closePairs]
  · intro k h1 h2
    simp [closePairs]

/-! ## C102 -/

/-- **C102.** Let `out` be a merge of the time-ordered trades `input` (C17), with non-negative amounts, and let mergeable
prices of the input differ by at most `d`.  The time-bar tables built before and after merging have the same stamps, and
row by row the same volume, open, high, low, close and volume-weighted price within `d`, and a trade count that can only
fall. -/
theorem C102_time_bars (log log1p : K → K) (rndOf : K → K → Int) (inferTick : List K → Except String K)
    (tol d : K) (withSide : Bool) (input : List (RawTrade K)) (out : List (MTrade K)) (I : Int) (hI : 0 < I)
    (hne : input ≠ []) (hs : input.Pairwise (fun a b => a.ts ≤ b.ts)) (hv : ∀ t ∈ input, 0 ≤ t.amount)
    (h : IsMergeOf tol withSide input out) (hd : PriceSlack tol d input) :
    ∃ rows rows',
      (kitCall log log1p rndOf inferTick (rawTable input) (.time I) BuilderState.fresh .ohlcv).2 = .ok (.bars rows) ∧
      (kitCall log log1p rndOf inferTick (mergedTable out) (.time I) BuilderState.fresh .ohlcv).2 = .ok (.bars rows') ∧
      List.Forall₂ (fun r r' => r'.1 = r.1 ∧ BarNear d r.2 r'.2) rows rows' := by
  have hclock := merge_clock tol withSide input out I h
  have hso := (C17_merge_ordered tol withSide input out h hs).1
  obtain ⟨blocks, rfl, hf, -⟩ := h
  have hn := nearRep_of tol d withSide blocks out hf hd
  have hne' : out ≠ [] := fun e => hne ((nearRep_nil hn).mpr e)
  have hs1 : (blocks.flatten.map (·.ts)).Pairwise (· ≤ ·) := List.pairwise_map.mpr hs
  have hs2 : (out.map (·.ts)).Pairwise (· ≤ ·) := List.pairwise_map.mpr hso
  refine ⟨_, _, time_table_eq log log1p rndOf inferTick (rawTable blocks.flatten) I hI (by simpa [rawTable] using hne)
      hs1 (by simp only [rawTable, List.length_map]),
    time_table_eq log log1p rndOf inferTick (mergedTable out) I hI (by simpa [mergedTable] using hne') hs2
      (by simp [mergedTable]), ?_⟩
  simp only [rawTable, mergedTable, hclock]
  rw [List.forall₂_map_left_iff, List.forall₂_map_right_iff, List.forall₂_same]
  rintro ⟨u, v⟩ huv
  refine ⟨rfl, ?_⟩
  have hle : u ≤ v := by
    obtain ⟨k, hk, e⟩ := List.getElem_of_mem huv
    rw [List.length_zip, List.length_tail] at hk
    rw [List.getElem_zip, List.getElem_tail] at e
    have hC := C01_timeBars_clock (blocks.flatten.map (·.ts)) I hI (by simpa using hne) hs1
    have := hC.2.1 k (by simp only [timeBarIndexer]; omega)
    simp only [timeBarIndexer] at this
    have e1 := congrArg Prod.fst e
    have e2 := congrArg Prod.snd e
    simp only at e1 e2
    omega
  obtain ⟨a1, a2⟩ := windowBar_cases blocks.flatten (·.ts) (·.price) (·.amount) hs1 u v hle
  obtain ⟨b1, b2⟩ := windowBar_cases out (·.ts) (·.price) (·.amount) hs2 u v hle
  obtain ⟨bs', e', hf'⟩ := nearRep_filter d withSide (fun t => decide (u < t ∧ t ≤ v)) blocks out hn
  by_cases hw : out.filter (fun t => decide (u < t.ts ∧ t.ts ≤ v)) = []
  · have hw' : blocks.flatten.filter (fun t => decide (u < t.ts ∧ t.ts ≤ v)) = [] := by
      rw [← e']; exact (nearRep_nil hf').mpr hw
    rw [a2 hw' _ rfl, b2 hw _ rfl]
    obtain ⟨x, hx, ex⟩ := pyGet_searchRight blocks.flatten (·.ts) (·.price) hs1 v hne
    obtain ⟨m, hm, em⟩ := pyGet_searchRight out (·.ts) (·.price) hs2 v hne'
    rw [ex, em]
    have hxm : |x.price - m.price| ≤ d := by
      obtain ⟨bs2, e2, hf2⟩ := nearRep_filter d withSide (fun t => decide (t ≤ v)) blocks out hn
      by_cases hz : out.filter (fun t => decide (t.ts ≤ v)) = []
      · rw [if_pos hz] at hm
        rw [if_pos (by rw [← e2]; exact (nearRep_nil hf2).mpr hz)] at hx
        exact (nearRep_last hn x m hx hm).2
      · rw [if_neg hz] at hm
        rw [← e2, if_neg (fun e => hz ((nearRep_nil hf2).mp e))] at hx
        exact (nearRep_last hf2 x m hx hm).2
    refine ⟨hxm, ?_, ?_, hxm, rfl, by simpa using hd.1, le_refl _, Iff.rfl⟩
    · rw [abs_le] at hxm; constructor <;> simp only <;> linarith [hxm.1, hxm.2]
    · rw [abs_le] at hxm; constructor <;> simp only <;> linarith [hxm.1, hxm.2]
  · have hw' : blocks.flatten.filter (fun t => decide (u < t.ts ∧ t.ts ≤ v)) ≠ [] := by
      rw [← e']; exact fun e => hw ((nearRep_nil hf').mp e)
    have r1 := a1 hw'
    have r2 := b1 hw
    rw [← e'] at r1
    refine barNear_of hf' hd.1 ?_ _ _ r1 r2
    intro x hx
    rw [e'] at hx
    exact hv x (List.mem_filter.mp hx).1

/-- **C102 (price grid).** If any two prices of the input are equal or at least the tolerance apart, merging changes no
open, high, low, close, volume or volume-weighted price of any time bar. -/
theorem C102_time_bars_grid (log log1p : K → K) (rndOf : K → K → Int) (inferTick : List K → Except String K)
    (tol : K) (withSide : Bool) (input : List (RawTrade K)) (out : List (MTrade K)) (I : Int) (hI : 0 < I)
    (hne : input ≠ []) (hs : input.Pairwise (fun a b => a.ts ≤ b.ts)) (hv : ∀ t ∈ input, 0 ≤ t.amount)
    (h : IsMergeOf tol withSide input out)
    (hgrid : ∀ a ∈ input, ∀ b ∈ input, |b.price - a.price| < tol → b.price = a.price) :
    ∃ rows rows',
      (kitCall log log1p rndOf inferTick (rawTable input) (.time I) BuilderState.fresh .ohlcv).2 = .ok (.bars rows) ∧
      (kitCall log log1p rndOf inferTick (mergedTable out) (.time I) BuilderState.fresh .ohlcv).2 = .ok (.bars rows') ∧
      rows'.map (fun r => (r.1, r.2.opn, r.2.high, r.2.low, r.2.close, r.2.volume, r.2.vwap)) =
        rows.map (fun r => (r.1, r.2.opn, r.2.high, r.2.low, r.2.close, r.2.volume, r.2.vwap)) := by
  obtain ⟨rows, rows', e1, e2, hf⟩ := C102_time_bars log log1p rndOf inferTick tol 0 withSide input out I hI hne hs hv h
    ⟨le_refl _, fun a ha b hb hlt => by rw [hgrid a ha b hb hlt]; simp⟩
  refine ⟨rows, rows', e1, e2, ?_⟩
  clear e1 e2
  induction hf with
  | nil => rfl
  | @cons r r' rs rs' hr _ ih =>
    obtain ⟨ht, hb⟩ := hr
    rw [List.map_cons, List.map_cons, ih, ht]
    congr 1
    have z : ∀ x y : K, |x - y| ≤ 0 → y = x := fun x y hxy => by
      have := abs_nonpos_iff.mp hxy
      linarith
    have h1 := hb.high; have h2 := hb.low
    rw [z _ _ hb.opn, z _ _ hb.close, z _ _ hb.vwap, hb.volume,
      le_antisymm (by linarith [h1.1]) (show r.2.high ≤ r'.2.high by linarith [h1.2]),
      le_antisymm (by linarith [h2.1]) (show r.2.low ≤ r'.2.low by linarith [h2.2])]

/-- The signed trades of a window, as the directional kernel reads them. -/
theorem window_sided {α : Type} (l : List α) (ts sd : α → Int) (f g : α → K) (hs : (l.map ts).Pairwise (· ≤ ·))
    (u v : Int) (huv : u ≤ v) :
    sliceAfter (sidedTrades (l.map sd) (l.map f) (l.map g)) ((searchRight (l.map ts) u : Int) - 1)
      ((searchRight (l.map ts) v : Int) - 1) =
    (l.filter (fun t => decide (u < ts t ∧ ts t ≤ v))).map (fun t => (⟨sd t, f t, g t⟩ : SidedTrade K)) := by
  have e : sidedTrades (l.map sd) (l.map f) (l.map g) = l.map (fun t => (⟨sd t, f t, g t⟩ : SidedTrade K)) := by
    unfold sidedTrades
    rw [List.zip_map', List.zip_map', List.map_map]; rfl
  rw [e, ← tradesIn_slice _ _ (by simp) hs u v huv]
  unfold tradesIn
  rw [List.zip_map', List.filter_map, List.map_map]
  rfl

/-- **C102 (buy and sell sides).** With maker flags, the bar of the trades in `(u, v]` has the same buy and sell volumes
before and after merging, buy and sell turnover that differ by at most `d` per unit of volume, and trade counts that can
only fall. -/
theorem C102_directional (tol d : K) (input : List (RawTrade K)) (out : List (MTrade K))
    (hs : input.Pairwise (fun a b => a.ts ≤ b.ts)) (hv : ∀ t ∈ input, 0 ≤ t.amount)
    (h : IsMergeOf tol true input out) (hd : PriceSlack tol d input) (u v : Int) (huv : u ≤ v) :
    let r := rawTable input
    let m := mergedTable out
    let row := dirBar r.prices r.amounts r.sides ((searchRight r.ts u : Int) - 1) ((searchRight r.ts v : Int) - 1)
    let row' := dirBar m.prices m.amounts m.sides ((searchRight m.ts u : Int) - 1) ((searchRight m.ts v : Int) - 1)
    row'.volBuy = row.volBuy ∧ row'.volSell = row.volSell ∧
      |row.dolBuy - row'.dolBuy| ≤ d * row.volBuy ∧ |row.dolSell - row'.dolSell| ≤ d * row.volSell ∧
      row'.ticksBuy ≤ row.ticksBuy ∧ row'.ticksSell ≤ row.ticksSell := by
  intro r m row row'
  have hso := (C17_merge_ordered tol true input out h hs).1
  obtain ⟨blocks, rfl, hf, -⟩ := h
  have hn := nearRep_of tol d true blocks out hf hd
  have hs1 : (blocks.flatten.map (·.ts)).Pairwise (· ≤ ·) := List.pairwise_map.mpr hs
  have hs2 : (out.map (·.ts)).Pairwise (· ≤ ·) := List.pairwise_map.mpr hso
  obtain ⟨bw, ew, hw⟩ := nearRep_filter d true (fun t => decide (u < t ∧ t ≤ v)) blocks out hn
  have hl1 := searchRight_le_length (blocks.flatten.map (·.ts)) v
  have hl2 := searchRight_le_length (out.map (·.ts)) v
  have hm1 := searchRight_le_of_le (blocks.flatten.map (·.ts)) huv
  have hm2 := searchRight_le_of_le (out.map (·.ts)) huv
  rw [List.length_map] at hl1 hl2
  have d1 := C10_directional_split r.prices r.amounts r.sides ((searchRight r.ts u : Int) - 1)
    ((searchRight r.ts v : Int) - 1) (by simp only [r, rawTable, List.length_map])
    (by simp only [r, rawTable, List.length_map]) (by omega) (by simp only [r, rawTable]; omega)
    (by simp only [r, rawTable, List.length_map]; omega)
  have d2 := C10_directional_split m.prices m.amounts m.sides ((searchRight m.ts u : Int) - 1)
    ((searchRight m.ts v : Int) - 1) (by simp only [m, mergedTable, List.length_map])
    (by simp only [m, mergedTable, List.length_map]) (by omega) (by simp only [m, mergedTable]; omega)
    (by simp only [m, mergedTable, List.length_map]; omega)
  have w1 := window_sided blocks.flatten (·.ts) (fun t => if t.maker then -1 else 1) (·.price) (·.amount) hs1 u v huv
  have w2 := window_sided out (·.ts) (·.side) (·.price) (·.amount) hs2 u v huv
  rw [← ew] at w1
  have o1 : ∀ s, ofSide s (sliceAfter (sidedTrades r.sides r.prices r.amounts) ((searchRight r.ts u : Int) - 1)
      ((searchRight r.ts v : Int) - 1)) =
      (bw.flatten.filter (fun t => decide ((if t.maker then (-1 : Int) else 1) = s))).map
        (fun t => (⟨if t.maker then -1 else 1, t.price, t.amount⟩ : SidedTrade K)) := by
    intro s
    simp only [r, rawTable]
    rw [w1, ofSide, List.filter_map]; rfl
  have o2 : ∀ s, ofSide s (sliceAfter (sidedTrades m.sides m.prices m.amounts) ((searchRight m.ts u : Int) - 1)
      ((searchRight m.ts v : Int) - 1)) =
      ((out.filter (fun t => decide (u < t.ts ∧ t.ts ≤ v))).filter (fun t => decide (t.side = s))).map
        (fun t => (⟨t.side, t.price, t.amount⟩ : SidedTrade K)) := by
    intro s
    simp only [m, mergedTable]
    rw [w2, ofSide, List.filter_map]; rfl
  simp only [o1, List.map_map, List.length_map] at d1
  simp only [o2, List.map_map, List.length_map] at d2
  obtain ⟨bb, eb, hb⟩ := nearRep_side d 1 bw _ hw
  obtain ⟨bS, eS, hS⟩ := nearRep_side d (-1) bw _ hw
  rw [← eb, ← eS] at d1
  obtain ⟨p1, p2, p3, p4, p5, p6⟩ := d1
  obtain ⟨q1, q2, q3, q4, q5, q6⟩ := d2
  have hpos : ∀ (s : Int) (x : RawTrade K),
      x ∈ bw.flatten.filter (fun t => decide ((if t.maker then (-1 : Int) else 1) = s)) → 0 ≤ x.amount := by
    intro s x hx
    have := (List.mem_filter.mp hx).1
    rw [ew] at this
    exact hv x (List.mem_filter.mp this).1
  refine ⟨?_, ?_, ?_, ?_, ?_, ?_⟩
  · simp only [row, row']; rw [p3, q3]; exact nearRep_amount hb
  · simp only [row, row']; rw [p4, q4]; exact nearRep_amount hS
  · simp only [row, row']; rw [p5, q5, p3]
    exact nearRep_dollar hb (fun x hx => hpos 1 x (by rw [← eb]; exact hx))
  · simp only [row, row']; rw [p6, q6, p4]
    exact nearRep_dollar hS (fun x hx => hpos (-1) x (by rw [← eS]; exact hx))
  · simp only [row, row']; rw [p1, q1]; exact_mod_cast nearRep_length hb
  · simp only [row, row']; rw [p2, q2]; exact_mod_cast nearRep_length hS

/-- Six trades, of which the second and third, and the fifth and sixth, are pieces of one order. -/
def splitDemo : List (RawTrade ℚ) :=
  [⟨1, 10, 1, false⟩, ⟨3, 11, 2, true⟩, ⟨3, 11, 1, true⟩, ⟨6, 12, 1, false⟩, ⟨8, 10, 4, false⟩, ⟨8, 10, 1, false⟩]

/- Non-vacuity: merging removes two trades; the bars of five nanoseconds keep their prices and volumes, the counts fall. -/
example : (mergeSplitTrades (1/100000000 : ℚ) true splitDemo).length = 4 ∧ splitDemo.length = 6 := by decide +kernel
def splitDemoRows (tr : KitTrades ℚ) : List (Int × Int × List ℚ) :=
  match (buildOhlcv (fun x => x) tr (.time 5) BuilderState.fresh).2 with
  | .ok t => t.map (fun r => (r.1, r.2.trades, [r.2.opn, r.2.high, r.2.low, r.2.close, r.2.volume]))
  | .error _ => []
example :
    splitDemoRows (rawTable splitDemo) =
      [(5, 3, [10, 11, 10, 11, 4]), (10, 3, [12, 12, 10, 10, 6]), (15, 0, [10, 10, 10, 10, 0])] ∧
    splitDemoRows (mergedTable (mergeSplitTrades (1/100000000) true splitDemo)) =
      [(5, 2, [10, 11, 10, 11, 4]), (10, 2, [12, 12, 10, 10, 6]), (15, 0, [10, 10, 10, 10, 0])] := by decide +kernel
example : PriceSlack (1/100000000 : ℚ) 0 splitDemo := by
  refine ⟨le_refl _, ?_⟩
  decide +kernel

/-- **C102 (tick bars differ).** Bars that count trades do depend on merging: on the same trades, tick bars of three
close at the third and sixth trade before merging, and at the third merged trade only after it. -/
theorem C102_tick_bars_differ :
    ∃ (input : List (RawTrade ℚ)),
      (tickBarIndexer (rawTable input).ts 3).map (fun i => (rawTable input).ts[i]?) ≠
      (tickBarIndexer (mergedTable (mergeSplitTrades (1/100000000) true input)).ts 3).map
        (fun i => (mergedTable (mergeSplitTrades (1/100000000) true input)).ts[i]?) :=
  ⟨splitDemo, by decide +kernel⟩

end FinML

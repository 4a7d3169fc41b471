/-
C102 (continued): footprints of bars of clock windows do not depend on whether split trades were merged.
`finmlkit/bar/utils.py:merge_split_trades` followed by `finmlkit/bar/base.py:comp_bar_footprints`.
-/
import Verif.Props.MergeBars
import Verif.Props.Footprint

set_option linter.unusedSectionVars false

namespace FinML

variable {K : Type} [Field K] [LinearOrder K] [IsStrictOrderedRing K]

/-! ## Lemmas -/

/-- Selecting a side and a set of prices keeps or drops whole merged orders when their prices agree. -/
theorem nearRep_level (s : Int) (P : K → Prop) [DecidablePred P] (bs : List (List (RawTrade K)))
    (ms : List (MTrade K)) (hf : List.Forall₂ (NearRep 0 true) bs ms) :
    ∃ bs', bs'.flatten =
        bs.flatten.filter (fun t => decide ((if t.maker then (-1 : Int) else 1) = s ∧ P t.price)) ∧
      List.Forall₂ (NearRep 0 true) bs' (ms.filter (fun t => decide (t.side = s ∧ P t.price))) := by
  induction hf with
  | nil => exact ⟨[], rfl, List.Forall₂.nil⟩
  | @cons b m bs ms hbm _ ih =>
    obtain ⟨bs', e, hf'⟩ := ih
    have hp : ∀ x ∈ b, x.price = m.price := fun x hx => by
      have := abs_nonpos_iff.mp (hbm.price x hx)
      linarith
    by_cases hP : m.side = s ∧ P m.price
    · refine ⟨b :: bs', ?_, ?_⟩
      · have hb : b.filter (fun t => decide ((if t.maker then (-1 : Int) else 1) = s ∧ P t.price)) = b :=
          List.filter_eq_self.mpr (fun x hx => by rw [← hbm.side rfl x hx, hp x hx]; simpa using hP)
        rw [List.flatten_cons, e, List.flatten_cons, List.filter_append, hb]
      · rw [List.filter_cons_of_pos (by simpa using hP)]; exact List.Forall₂.cons hbm hf'
    · refine ⟨bs', ?_, ?_⟩
      · have hb : b.filter (fun t => decide ((if t.maker then (-1 : Int) else 1) = s ∧ P t.price)) = [] :=
          List.filter_eq_nil_iff.mpr (fun x hx => by rw [← hbm.side rfl x hx, hp x hx]; simpa using hP)
        rw [e, List.flatten_cons, List.filter_append, hb, List.nil_append]
      · rw [List.filter_cons_of_neg (by simpa using hP)]; exact hf'

/-- What the footprint kernel reads in a clock window. -/
theorem window_footprint {α : Type} (l : List α) (ts sd : α → Int) (f g : α → K)
    (hs : (l.map ts).Pairwise (· ≤ ·)) (u v : Int) (huv : u ≤ v) :
    footprintTrades (l.map f) (l.map g) (l.map sd) ((searchRight (l.map ts) u : Int) - 1)
      ((searchRight (l.map ts) v : Int) - 1) =
    (l.filter (fun t => decide (u < ts t ∧ ts t ≤ v))).map (fun t => (f t, g t, sd t)) := by
  have hl := searchRight_le_length (l.map ts) v
  have hm := searchRight_le_of_le (l.map ts) huv
  rw [List.length_map] at hl
  rw [footprintTrades_sided _ _ _ _ _ (by simp) (by simp) (by omega) (by omega) (by simp; omega),
    window_sided l ts sd f g hs u v huv, List.map_map]
  rfl

/-- The parts of a footprint that follow from its levels and volumes. -/
theorem footprintBar_stats (rnd : K → Int) (mult lo hi : K) (ts : List (K × K × Int)) (fp : Footprint K)
    (h : footprintBar rnd mult lo hi ts = .ok fp) :
    fp.stats = footprintFeatures fp.priceLevels fp.lv.buyVol fp.lv.sellVol mult ∧
    fp.buyImbSum = (fp.stats.buyImb.count true) % 65536 ∧ fp.sellImbSum = (fp.stats.sellImb.count true) % 65536 := by
  unfold footprintBar at h
  simp only at h
  split at h
  · simp at h
  · cases Except.ok.inj h
    exact ⟨rfl, rfl, rfl⟩

/-! ## C102 -/

/-- **C102 (footprints).** With maker flags and mergeable prices equal (a price grid coarser than the tolerance), the
footprint of the trades in `(u, v]` has the same price levels, the same buy and sell volume at every level and hence the
same imbalances, runs, price of largest volume, skew and Gini index before and after merging; the trade counts of a
level can only fall, and not to zero. -/
theorem C102_footprints (rnd : K → Int) (hmono : Monotone rnd) (mult tol : K) (input : List (RawTrade K))
    (out : List (MTrade K)) (hs : input.Pairwise (fun a b => a.ts ≤ b.ts))
    (h : IsMergeOf tol true input out)
    (hgrid : ∀ a ∈ input, ∀ b ∈ input, |b.price - a.price| < tol → b.price = a.price) (u v : Int) (huv : u ≤ v)
    (lo hi : K) (hlh : lo ≤ hi) (hin : ∀ t ∈ input, u < t.ts → t.ts ≤ v → lo ≤ t.price ∧ t.price ≤ hi) :
    let r := rawTable input
    let m := mergedTable out
    ∃ fp fp',
      footprintBar rnd mult lo hi (footprintTrades r.prices r.amounts r.sides
        ((searchRight r.ts u : Int) - 1) ((searchRight r.ts v : Int) - 1)) = .ok fp ∧
      footprintBar rnd mult lo hi (footprintTrades m.prices m.amounts m.sides
        ((searchRight m.ts u : Int) - 1) ((searchRight m.ts v : Int) - 1)) = .ok fp' ∧
      fp'.priceLevels = fp.priceLevels ∧ fp'.lv.buyVol = fp.lv.buyVol ∧ fp'.lv.sellVol = fp.lv.sellVol ∧
      fp'.stats = fp.stats ∧ fp'.buyImbSum = fp.buyImbSum ∧ fp'.sellImbSum = fp.sellImbSum ∧
      List.Forall₂ (fun x y => y ≤ x ∧ (y = 0 ↔ x = 0)) fp.lv.buyTicks fp'.lv.buyTicks ∧
      List.Forall₂ (fun x y => y ≤ x ∧ (y = 0 ↔ x = 0)) fp.lv.sellTicks fp'.lv.sellTicks := by
  intro r m
  have hso := (C17_merge_ordered tol true input out h hs).1
  obtain ⟨blocks, rfl, hf, -⟩ := h
  have hn := nearRep_of tol 0 true blocks out hf
    ⟨le_refl _, fun a ha b hb hlt => by rw [hgrid a ha b hb hlt]; simp⟩
  have hs1 : (blocks.flatten.map (·.ts)).Pairwise (· ≤ ·) := List.pairwise_map.mpr hs
  have hs2 : (out.map (·.ts)).Pairwise (· ≤ ·) := List.pairwise_map.mpr hso
  obtain ⟨bw, ew, hw⟩ := nearRep_filter 0 true (fun t => decide (u < t ∧ t ≤ v)) blocks out hn
  have w1 := window_footprint blocks.flatten (·.ts) (fun t => if t.maker then -1 else 1) (·.price) (·.amount) hs1 u v huv
  have w2 := window_footprint out (·.ts) (·.side) (·.price) (·.amount) hs2 u v huv
  rw [← ew] at w1
  simp only [r, m, rawTable, mergedTable]
  rw [w1, w2]
  have hinr : ∀ x ∈ bw.flatten, lo ≤ x.price ∧ x.price ≤ hi := by
    intro x hx
    rw [ew] at hx
    obtain ⟨hx1, hx2⟩ := List.mem_filter.mp hx
    have hx2 := of_decide_eq_true hx2
    exact hin x hx1 hx2.1 hx2.2
  obtain ⟨fp, hfp, k0, l1, l2, l3, l4, hall⟩ := C13_footprint_levels rnd hmono mult lo hi
    (bw.flatten.map (fun t => (t.price, t.amount, if t.maker then (-1 : Int) else 1))) hlh (by
      intro t ht
      obtain ⟨x, hx, rfl⟩ := List.mem_map.mp ht
      exact hinr x hx)
  obtain ⟨fp', hfp', k0', l1', l2', l3', l4', hall'⟩ := C13_footprint_levels rnd hmono mult lo hi
    ((out.filter (fun t => decide (u < t.ts ∧ t.ts ≤ v))).map (fun t => (t.price, t.amount, t.side))) hlh (by
      intro t ht
      obtain ⟨x, hx, rfl⟩ := List.mem_map.mp ht
      obtain ⟨y, hy, e⟩ := nearRep_mem_right hw x hx
      simp only [← e]
      exact hinr y hy)
  have hlen : fp'.priceLevels.length = fp.priceLevels.length := by omega
  have key : ∀ (s p : Int),
      ((atLevel rnd s p ((out.filter (fun t => decide (u < t.ts ∧ t.ts ≤ v))).map
        (fun t => (t.price, t.amount, t.side)))).map (·.2.1)).sum =
      ((atLevel rnd s p (bw.flatten.map (fun t => (t.price, t.amount, if t.maker then (-1 : Int) else 1)))).map
        (·.2.1)).sum ∧
      (atLevel rnd s p ((out.filter (fun t => decide (u < t.ts ∧ t.ts ≤ v))).map
        (fun t => (t.price, t.amount, t.side)))).length ≤
      (atLevel rnd s p (bw.flatten.map (fun t => (t.price, t.amount, if t.maker then (-1 : Int) else 1)))).length ∧
      ((atLevel rnd s p ((out.filter (fun t => decide (u < t.ts ∧ t.ts ≤ v))).map
        (fun t => (t.price, t.amount, t.side)))).length = 0 ↔
      (atLevel rnd s p (bw.flatten.map (fun t => (t.price, t.amount, if t.maker then (-1 : Int) else 1)))).length = 0) := by
    intro s p
    obtain ⟨bl, el, hl⟩ := nearRep_level s (fun x => rnd x = p) bw _ hw
    have e1 : atLevel rnd s p (bw.flatten.map (fun t => (t.price, t.amount, if t.maker then (-1 : Int) else 1))) =
        bl.flatten.map (fun t => (t.price, t.amount, if t.maker then (-1 : Int) else 1)) := by
      rw [el, atLevel, List.filter_map]; rfl
    have e2 : atLevel rnd s p ((out.filter (fun t => decide (u < t.ts ∧ t.ts ≤ v))).map
        (fun t => (t.price, t.amount, t.side))) =
        ((out.filter (fun t => decide (u < t.ts ∧ t.ts ≤ v))).filter
          (fun t => decide (t.side = s ∧ rnd t.price = p))).map (fun t => (t.price, t.amount, t.side)) := by
      rw [atLevel, List.filter_map]; rfl
    rw [e1, e2]
    simp only [List.map_map, List.length_map, List.length_eq_zero_iff]
    exact ⟨nearRep_amount hl, nearRep_length hl, (nearRep_nil hl).symm⟩
  have hpl : fp'.priceLevels = fp.priceLevels := by
    apply List.ext_getElem?
    intro l
    by_cases hlt : l < fp.priceLevels.length
    · rw [(hall l hlt).1, (hall' l (by omega)).1]
    · rw [List.getElem?_eq_none (by omega), List.getElem?_eq_none (by omega)]
  have hbv : fp'.lv.buyVol = fp.lv.buyVol := by
    apply List.ext_getElem?
    intro l
    by_cases hlt : l < fp.priceLevels.length
    · rw [(hall l hlt).2.1, (hall' l (by omega)).2.1, (key _ _).1]
    · rw [List.getElem?_eq_none (by omega), List.getElem?_eq_none (by omega)]
  have hsv : fp'.lv.sellVol = fp.lv.sellVol := by
    apply List.ext_getElem?
    intro l
    by_cases hlt : l < fp.priceLevels.length
    · rw [(hall l hlt).2.2.1, (hall' l (by omega)).2.2.1, (key _ _).1]
    · rw [List.getElem?_eq_none (by omega), List.getElem?_eq_none (by omega)]
  obtain ⟨t1, t2, t3⟩ := footprintBar_stats rnd mult lo hi _ fp hfp
  obtain ⟨t1', t2', t3'⟩ := footprintBar_stats rnd mult lo hi _ fp' hfp'
  have hst : fp'.stats = fp.stats := by rw [t1, t1', hpl, hbv, hsv]
  refine ⟨fp, fp', hfp, hfp', hpl, hbv, hsv, hst, by rw [t2, t2', hst], by rw [t3, t3', hst], ?_, ?_⟩
  · rw [List.forall₂_iff_get]
    refine ⟨by omega, ?_⟩
    intro l h1 h2
    have q1 := (hall l (by omega)).2.2.2.1
    have q2 := (hall' l (by omega)).2.2.2.1
    rw [List.getElem?_eq_getElem h1] at q1
    rw [List.getElem?_eq_getElem h2] at q2
    rw [List.get_eq_getElem, List.get_eq_getElem, Option.some.inj q1, Option.some.inj q2]
    have := key 1 (rnd lo + l)
    omega
  · rw [List.forall₂_iff_get]
    refine ⟨by omega, ?_⟩
    intro l h1 h2
    have q1 := (hall l (by omega)).2.2.2.2
    have q2 := (hall' l (by omega)).2.2.2.2
    rw [List.getElem?_eq_getElem h1] at q1
    rw [List.getElem?_eq_getElem h2] at q2
    rw [List.get_eq_getElem, List.get_eq_getElem, Option.some.inj q1, Option.some.inj q2]
    have := key (-1) (rnd lo + l)
    omega

/- Non-vacuity: the first bar of `splitDemo`; the two sells at 11 become one. -/
example :
    (footprintBar (fun x : ℚ => Rat.floor x) 3 10 11 (footprintTrades (rawTable splitDemo).prices (rawTable splitDemo).amounts
      (rawTable splitDemo).sides (-1) 2)).toOption.map (fun f => (f.lv.sellVol, f.lv.sellTicks)) =
      some ([0, 3], [0, 2]) ∧
    (footprintBar (fun x : ℚ => Rat.floor x) 3 10 11
      (footprintTrades (mergedTable (mergeSplitTrades (1/100000000) true splitDemo)).prices
        (mergedTable (mergeSplitTrades (1/100000000) true splitDemo)).amounts
        (mergedTable (mergeSplitTrades (1/100000000) true splitDemo)).sides (-1) 1)).toOption.map
        (fun f => (f.lv.sellVol, f.lv.sellTicks)) = some ([0, 3], [0, 1]) := by decide +kernel

/-- **C102 (footprints off the grid).** If mergeable prices may differ, merging can move volume to another price level:
two pieces of one order on either side of a tick boundary. -/
theorem C102_footprints_need_grid :
    ∃ (input : List (RawTrade ℚ)),
      (footprintBar (fun x : ℚ => Rat.floor x) 3 (299/100) 3 (footprintTrades (rawTable input).prices (rawTable input).amounts
        (rawTable input).sides (-1) 1)).toOption.map (·.lv.buyVol) = some [1, 1] ∧
      (let out := mergedTable (mergeSplitTrades (1/10) true input)
       (footprintBar (fun x : ℚ => Rat.floor x) 3 (299/100) 3 (footprintTrades out.prices out.amounts out.sides (-1) 0)).toOption.map
        (·.lv.buyVol) = some [2, 0]) :=
  ⟨[⟨1, 299/100, 1, false⟩, ⟨1, 3, 1, false⟩], by decide +kernel, by decide +kernel⟩

end FinML

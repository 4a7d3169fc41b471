/-
C121: what a row of resampled time bars says about the trades.  `finmlkit/bar/kit.py:TimeBarKit`, then
`finmlkit/bar/io.py:TimeBarReader._resample`.
-/
import Verif.Props.Resample
import Verif.Props.MergeBars

set_option linter.unusedSectionVars false

namespace FinML

variable {K : Type} [Field K] [LinearOrder K] [IsStrictOrderedRing K]

/-! ## Specification -/

/-- The trades (time, price, amount) made after `u` and not after `v`. -/
def ticksIn (l : List (Int × K × K)) (u v : Int) : List (Int × K × K) :=
  l.filter (fun t => decide (u < t.1 ∧ t.1 ≤ v))

/-- The trades made at or before `v`. -/
def ticksTo (l : List (Int × K × K)) (v : Int) : List (Int × K × K) := l.filter (fun t => decide (t.1 ≤ v))

/-- `b` is the row that resampling bars of `I` to `d` should give on the trades `l`, whose first fine interval begins at
`c₀`: it covers the trades from `I` before its label to `I` before the next label, without those at or before `c₀`.  The
open is the first of them if the first fine interval has a trade, and otherwise the last price before. -/
structure IsResampledOf (l : List (Int × K × K)) (c₀ I d : Int) (b : TBar K) : Prop where
  volume : b.volume = ((ticksIn l (max (b.ts - I) c₀) (b.ts + d - I)).map (·.2.2)).sum
  trades : b.trades = (ticksIn l (max (b.ts - I) c₀) (b.ts + d - I)).length
  vwap : b.volume ≠ 0 → ∃ w, b.vwap = some w ∧
    w * b.volume = ((ticksIn l (max (b.ts - I) c₀) (b.ts + d - I)).map (fun t => t.2.1 * t.2.2)).sum
  vwap_nan : b.volume = 0 → b.vwap = none
  open_trade : ticksIn l (max (b.ts - I) c₀) (max (b.ts - I) c₀ + I) ≠ [] →
    ((ticksIn l (max (b.ts - I) c₀) (b.ts + d - I)).map (·.2.1)).head? = some b.opn
  open_stale : ticksIn l (max (b.ts - I) c₀) (max (b.ts - I) c₀ + I) = [] →
    ((ticksTo l (max (b.ts - I) c₀)).map (·.2.1)).getLast? = some b.opn
  close : ((ticksTo l (b.ts + d - I)).map (·.2.1)).getLast? = some b.close
  high_mem : b.high = b.opn ∨ ∃ t ∈ ticksIn l (max (b.ts - I) c₀) (b.ts + d - I), t.2.1 = b.high
  high_max : b.opn ≤ b.high ∧ ∀ t ∈ ticksIn l (max (b.ts - I) c₀) (b.ts + d - I), t.2.1 ≤ b.high
  low_mem : b.low = b.opn ∨ ∃ t ∈ ticksIn l (max (b.ts - I) c₀) (b.ts + d - I), t.2.1 = b.low
  low_min : b.low ≤ b.opn ∧ ∀ t ∈ ticksIn l (max (b.ts - I) c₀) (b.ts + d - I), b.low ≤ t.2.1

/-! ## Lemmas -/

/-- Consecutive windows of a time-ordered list join. -/
theorem ticksIn_append (l : List (Int × K × K)) (hs : l.Pairwise (fun a b => a.1 ≤ b.1)) (u v w : Int) (huv : u ≤ v)
    (hvw : v ≤ w) : ticksIn l u v ++ ticksIn l v w = ticksIn l u w := by
  unfold ticksIn
  induction l with
  | nil => rfl
  | cons t l ih =>
    rw [List.pairwise_cons] at hs
    by_cases h : t.1 ≤ v
    · rw [List.filter_cons_of_neg (p := fun t : Int × K × K => decide (v < t.1 ∧ t.1 ≤ w)) (by simp; omega)]
      by_cases h' : u < t.1
      · rw [List.filter_cons_of_pos (by simp; omega), List.filter_cons_of_pos (by simp; omega), List.cons_append,
          ih hs.2]
      · rw [List.filter_cons_of_neg (by simp; omega), List.filter_cons_of_neg (by simp; omega), ih hs.2]
    · have e : ∀ x ∈ t :: l, v < x.1 := by
        intro x hx
        rcases List.mem_cons.mp hx with rfl | hx
        · omega
        · have := hs.1 x hx; omega
      rw [List.filter_eq_nil_iff.mpr (fun x hx => by have := e x hx; simp; omega), List.nil_append]
      apply List.filter_congr
      intro x hx
      have := e x hx
      simp only [decide_eq_decide]; omega

/-- The fine windows whose labels fall in `[k, k + d)` cover exactly the trades of the shifted window. -/
theorem flatMap_windows (l : List (Int × K × K)) (hs : l.Pairwise (fun a b => a.1 ≤ b.1)) (I d k : Int) (hI : 0 < I)
    (hd : I ∣ d) (hk : I ∣ k) (cs : List Int) (c : Int)
    (hstep : ∀ (i : Nat) (h : i + 1 < (c :: cs).length), (c :: cs)[i + 1] = (c :: cs)[i] + I)
    (hdvd : I ∣ c) :
    (((c :: cs).zip cs).filter (fun q => decide (k ≤ q.2 ∧ q.2 < k + d))).flatMap (fun q => ticksIn l q.1 q.2) =
      (ticksIn l c ((c :: cs).getLast (by simp))).filter (fun t => decide (k - I < t.1 ∧ t.1 ≤ k + d - I)) := by
  induction cs generalizing c with
  | nil =>
    simp only [List.zip_nil_right, List.filter_nil, List.flatMap_nil, List.getLast_singleton]
    symm
    rw [List.filter_eq_nil_iff]
    intro t ht
    have := of_decide_eq_true (List.mem_filter.mp ht).2
    omega
  | cons e cs ih =>
    have he : e = c + I := by simpa using hstep 0 (by simp)
    have hstep' : ∀ (i : Nat) (h : i + 1 < (e :: cs).length), (e :: cs)[i + 1] = (e :: cs)[i] + I := by
      intro i h
      have := hstep (i + 1) (by rw [List.length_cons]; omega)
      simpa using this
    have hde : I ∣ e := by rw [he]; exact dvd_add hdvd (dvd_refl I)
    have hlast : e ≤ (e :: cs).getLast (by simp) := by
      have hmono : ∀ (i : Nat) (h : i < (e :: cs).length), e ≤ (e :: cs)[i] := by
        intro i
        induction i with
        | zero => intro _; simp
        | succ i ih' =>
          intro h
          have := hstep' i h
          have := ih' (by omega)
          omega
      rw [List.getLast_eq_getElem]
      exact hmono _ _
    have ih := ih e hstep' hde
    rw [List.getLast_cons_cons, ← ticksIn_append l hs c e _ (by omega) hlast, List.filter_append, ← ih,
      List.zip_cons_cons]
    obtain ⟨x, hx⟩ := hdvd
    obtain ⟨y, hy⟩ := hk
    obtain ⟨z, hz⟩ := hd
    by_cases hP : k ≤ e ∧ e < k + d
    · rw [List.filter_cons_of_pos (by simpa using hP), List.flatMap_cons]
      congr 1
      symm
      rw [List.filter_eq_self]
      intro t ht
      have := of_decide_eq_true (List.mem_filter.mp ht).2
      have h3 : c < k + d - I := by omega
      have h4 : c + I ≤ k + d - I := by
        have e1 : c - (k + d - I) = I * (x - (y + z - 1)) := by rw [hx, hy, hz]; ring
        have : x - (y + z - 1) < 0 := by
          by_contra hge
          have : 0 ≤ I * (x - (y + z - 1)) := mul_nonneg hI.le (by omega)
          omega
        have : I * (x - (y + z - 1)) ≤ I * (-1) := mul_le_mul_of_nonneg_left (by omega) hI.le
        omega
      simp only [decide_eq_true_eq]; omega
    · rw [List.filter_cons_of_neg (by simpa using hP)]
      have hz' : (ticksIn l c e).filter (fun t => decide (k - I < t.1 ∧ t.1 ≤ k + d - I)) = [] := by
        rw [List.filter_eq_nil_iff]
        intro t ht
        have := of_decide_eq_true (List.mem_filter.mp ht).2
        have h4 : e < k → e ≤ k - I := by
          intro hlt
          have e1 : e - k = I * (x + 1 - y) := by rw [he, hx, hy]; ring
          have : x + 1 - y < 0 := by
            by_contra hge
            have : 0 ≤ I * (x + 1 - y) := mul_nonneg hI.le (by omega)
            omega
          have : I * (x + 1 - y) ≤ I * (-1) := mul_le_mul_of_nonneg_left (by omega) hI.le
          omega
        simp only [decide_eq_true_eq]; omega
      rw [hz', List.nil_append]

/-- The stored fine bars as a list over the clock. -/
theorem buildTimeBars_eq (l : List (Int × K × K)) (I : Int) (hI : 0 < I) (hne : l ≠ [])
    (hs : (l.map (·.1)).Pairwise (· ≤ ·)) :
    buildTimeBars (l.map (·.1)) (l.map (·.2.1)) (l.map (·.2.2)) I =
      .ok (((timeBarClock (l.map (·.1)) I).zip (timeBarClock (l.map (·.1)) I).tail).map (fun q =>
        let o := ohlcvBar (l.map (·.2.1)) (l.map (·.2.2)) ((searchRight (l.map (·.1)) q.1 : Int) - 1)
          ((searchRight (l.map (·.1)) q.2 : Int) - 1)
        ⟨q.2, o.opn, o.high, o.low, o.close, o.volume, o.trades, some o.vwap, o.median⟩)) := by
  have hcl := timeBarClock_length_pos (l.map (·.1)) I hI (by simpa using hne) hs
  have hc : compBarOhlcv (l.map (·.2.1)) (l.map (·.2.2)) (timeBarIndexer (l.map (·.1)) I).2 =
      .ok ((closePairs (timeBarIndexer (l.map (·.1)) I).2).map (fun c => ohlcvBar (l.map (·.2.1)) (l.map (·.2.2)) c.1 c.2)) := by
    unfold compBarOhlcv
    rw [if_neg (by simp), if_neg (by simp only [timeBarIndexer, List.length_map]; omega)]
  unfold buildTimeBars
  simp only [hc, Except.ok.injEq]
  simp only [timeBarIndexer]
  apply List.ext_getElem
  · simp [closePairs]
  · intro k h1 h2
    simp [closePairs]

/-- The trades up to `v` are those up to `u` and those of the window. -/
theorem ticksTo_append (l : List (Int × K × K)) (hs : l.Pairwise (fun a b => a.1 ≤ b.1)) (u v : Int) (huv : u ≤ v) :
    ticksTo l u ++ ticksIn l u v = ticksTo l v := by
  unfold ticksTo ticksIn
  induction l with
  | nil => rfl
  | cons t l ih =>
    rw [List.pairwise_cons] at hs
    by_cases h : t.1 ≤ u
    · rw [List.filter_cons_of_pos (by simpa using h), List.filter_cons_of_neg (by simp; omega),
        List.filter_cons_of_pos (by simp; omega), List.cons_append, ih hs.2]
    · have e : ∀ x ∈ t :: l, u < x.1 := by
        intro x hx
        rcases List.mem_cons.mp hx with rfl | hx
        · omega
        · have := hs.1 x hx; omega
      rw [List.filter_eq_nil_iff.mpr (fun x hx => by have := e x hx; simp; omega), List.nil_append]
      apply List.filter_congr
      intro x hx
      have := e x hx
      simp only [decide_eq_decide]; omega

/-- One fine bar: its window, and the last trade up to its label. -/
theorem fineBar_spec (l : List (Int × K × K)) (hs : l.Pairwise (fun a b => a.1 ≤ b.1)) (hv : ∀ t ∈ l, 0 ≤ t.2.2)
    (u v : Int) (huv : u ≤ v) (hto : ticksTo l v ≠ []) :
    let o := ohlcvBar (l.map (·.2.1)) (l.map (·.2.2)) ((searchRight (l.map (·.1)) u : Int) - 1)
      ((searchRight (l.map (·.1)) v : Int) - 1)
    o.volume = ((ticksIn l u v).map (·.2.2)).sum ∧ o.trades = (ticksIn l u v).length ∧
    o.vwap * o.volume = ((ticksIn l u v).map (fun t => t.2.1 * t.2.2)).sum ∧
    ((ticksTo l v).map (·.2.1)).getLast? = some o.close ∧
    (ticksIn l u v ≠ [] → ((ticksIn l u v).map (·.2.1)).head? = some o.opn ∧
      o.high ∈ (ticksIn l u v).map (·.2.1) ∧ o.low ∈ (ticksIn l u v).map (·.2.1) ∧
      ∀ p ∈ (ticksIn l u v).map (·.2.1), o.low ≤ p ∧ p ≤ o.high) ∧
    (ticksIn l u v = [] → o.opn = o.close ∧ o.high = o.close ∧ o.low = o.close ∧ ticksTo l u = ticksTo l v) := by
  intro o
  have hs' : (l.map (·.1)).Pairwise (· ≤ ·) := List.pairwise_map.mpr hs
  obtain ⟨a1, a2⟩ := windowBar_cases l (·.1) (·.2.1) (·.2.2) hs' u v huv
  have hl : l ≠ [] := fun e => hto (by rw [e]; rfl)
  have hsplit := ticksTo_append l hs u v huv
  by_cases hw : ticksIn l u v = []
  · have ho := a2 hw _ rfl
    change o = _ at ho
    obtain ⟨x, hx, ex⟩ := pyGet_searchRight l (·.1) (·.2.1) hs' v hl
    rw [if_neg (show ¬ l.filter (fun t => decide (t.1 ≤ v)) = [] from hto)] at hx
    rw [hw, List.append_nil] at hsplit
    rw [ex] at ho
    refine ⟨by rw [ho, hw]; rfl, by rw [ho, hw]; rfl, by rw [ho, hw]; simp, ?_, fun h => absurd hw h,
      fun _ => ⟨by rw [ho], by rw [ho], by rw [ho], hsplit⟩⟩
    have hx' : (ticksTo l v).getLast? = some x := hx
    rw [List.getLast?_map, hx', ho]; rfl
  · have ho : IsOhlcvOf ((ticksIn l u v).map (·.2.1)) ((ticksIn l u v).map (·.2.2)) o := a1 hw
    have hz : List.zipWith (· * ·) ((ticksIn l u v).map (·.2.1)) ((ticksIn l u v).map (·.2.2)) =
        (ticksIn l u v).map (fun t => t.2.1 * t.2.2) := by
      rw [List.zipWith_map, List.zipWith_self]
    have hnn : ∀ x ∈ (ticksIn l u v).map (·.2.2), 0 ≤ x := by
      intro x hx
      obtain ⟨t, ht, rfl⟩ := List.mem_map.mp hx
      exact hv t (List.mem_filter.mp ht).1
    refine ⟨ho.volume, by rw [ho.trades, List.length_map], ?_, ?_, fun _ => ⟨ho.opn, ho.high_mem, ho.low_mem,
      fun p hp => ⟨ho.low_min p hp, ho.high_max p hp⟩⟩, fun h => absurd h hw⟩
    · rw [ho.volume]
      rcases lt_or_ge 0 ((ticksIn l u v).map (·.2.2)).sum with hp | hn
      · rw [ho.vwap hp, hz]
      · have h0 : ∀ x ∈ (ticksIn l u v).map (·.2.2), x = 0 := fun x hx =>
          le_antisymm (le_trans (List.single_le_sum hnn x hx) hn) (hnn x hx)
        rw [List.sum_eq_zero h0, mul_zero]
        symm
        apply List.sum_eq_zero
        intro x hx
        obtain ⟨t, ht, rfl⟩ := List.mem_map.mp hx
        rw [h0 t.2.2 (List.mem_map.mpr ⟨t, ht, rfl⟩), mul_zero]
    · rw [← hsplit, List.map_append, List.getLast?_append_of_ne_nil _ (by simpa using hw)]
      exact ho.close

/-! ## C121 -/

/-- **C121.** Let time bars of `I` be built from time-ordered trades with non-negative amounts and resampled to a
multiple `d` of `I`.  Every row is a faithful summary of the trades from `I` before its label to `I` before the next
label (after the beginning of the first fine interval), except that it opens at the last price before the window when the
first fine interval has no trade; and every trade after the beginning of the first fine interval is in one row. -/
theorem C121_resampled_rows (sortW : List (K × Int) → List (K × Int)) (l : List (Int × K × K)) (I d : Int) (hI : 0 < I)
    (hd : 0 < d) (hId : I ∣ d) (hne : l ≠ []) (hs : l.Pairwise (fun a b => a.1 ≤ b.1)) (hv : ∀ t ∈ l, 0 ≤ t.2.2) :
    ∃ rows, buildTimeBars (l.map (·.1)) (l.map (·.2.1)) (l.map (·.2.2)) I = .ok rows ∧
      (∀ b ∈ resample sortW d rows, IsResampledOf l ((l.head hne).1 / I * I) I d b) ∧
      ∀ t ∈ l, (l.head hne).1 / I * I < t.1 →
        ∃! k, k - I < t.1 ∧ t.1 ≤ k + d - I ∧ ∃ b ∈ resample sortW d rows, b.ts = k := by
  have hs' : (l.map (·.1)).Pairwise (· ≤ ·) := List.pairwise_map.mpr hs
  refine ⟨_, buildTimeBars_eq l I hI hne hs', ?_⟩
  obtain ⟨k1, k2, k3, k4, -⟩ := C01_timeBars_clock (l.map (·.1)) I hI (by simpa using hne) hs'
  have hcl := timeBarClock_length_pos (l.map (·.1)) I hI (by simpa using hne) hs'
  simp only [timeBarIndexer] at k1 k2 k3 k4
  have hc0 : (timeBarClock (l.map (·.1)) I).head? = some ((l.head hne).1 / I * I) := by
    cases l with
    | nil => exact absurd rfl hne
    | cons a l' =>
      have hpos : 0 < (timeBarClock ((a :: l').map (·.1)) I).length := by omega
      rw [List.head?_eq_getElem?, List.getElem?_eq_getElem hpos]
      simp only [timeBarClock, arange_getElem, List.map_cons, List.headD_cons, List.head_cons]
      simp
  obtain ⟨c, cs, hcc⟩ : ∃ c cs, timeBarClock (l.map (·.1)) I = c :: cs := by
    cases h : timeBarClock (l.map (·.1)) I with
    | nil => rw [h] at hcl; simp at hcl
    | cons a as => exact ⟨a, as, rfl⟩
  simp only [hcc] at k1 k2 k3 k4 hcl hc0 ⊢
  rw [List.head?_cons, Option.some.injEq] at hc0
  rw [← hc0]
  simp only [List.tail_cons]
  have hdc : I ∣ c := k1 c (by simp)
  obtain ⟨cL, hcL, hL1, hL2⟩ := k4
  have hlast : (c :: cs).getLast (by simp) = cL := by
    rw [List.getLast?_eq_some_getLast (by simp : (c :: cs) ≠ [])] at hcL
    exact Option.some.inj hcL
  have hdL : I ∣ cL := by rw [← hlast]; exact k1 _ (List.getLast_mem _)
  have hhead : c ≤ (l.head hne).1 ∧ (l.head hne).1 < c + I := by
    obtain ⟨c', hc', h1, h2⟩ := k3
    rw [List.head?_cons, Option.mem_some_iff] at hc'
    subst hc'
    rw [List.head_map] at h1 h2
    exact ⟨h1, h2⟩
  have hall : ∀ t ∈ l, t.1 ≤ cL := by
    intro t ht
    have h1 : t.1 ≤ (l.getLast hne).1 := by
      obtain ⟨i, hi, rfl⟩ := List.getElem_of_mem ht
      rw [List.getLast_eq_getElem]
      rcases Nat.lt_or_ge i (l.length - 1) with h | h
      · exact List.pairwise_iff_getElem.mp hs i (l.length - 1) hi (by omega) h
      · have : i = l.length - 1 := by omega
        subst this; exact le_refl _
    rw [List.getLast_map] at hL1
    omega
  -- the clock pairs
  have hval : ∀ (i : Nat) (h : i < (c :: cs).length), (c :: cs)[i] = c + i * I := by
    intro i
    induction i with
    | zero => intro _; simp
    | succ i ih =>
      intro h
      rw [k2 i h, ih (by omega)]
      push_cast; ring
  have hpair : ∀ q ∈ (c :: cs).zip cs, q.1 = q.2 - I ∧ c + I ≤ q.2 ∧ I ∣ q.2 := by
    intro q hq
    obtain ⟨i, hi, rfl⟩ := List.getElem_of_mem hq
    rw [List.length_zip, List.length_cons] at hi
    have h1 := hval i (by rw [List.length_cons]; omega)
    have h2 := hval (i + 1) (by rw [List.length_cons]; omega)
    rw [List.getElem_cons_succ] at h2
    rw [List.getElem_zip]
    simp only
    refine ⟨by rw [h1, h2]; push_cast; ring, ?_, k1 _ (by simp)⟩
    rw [h2]; push_cast
    nlinarith [mul_nonneg (show (0 : Int) ≤ (i : Int) by omega) hI.le]
  have hmem : ∀ v, c < v → v ≤ cL → I ∣ v → (v - I, v) ∈ (c :: cs).zip cs := by
    intro v h1 h2 ⟨x, hx⟩
    obtain ⟨y, hy⟩ := hdc
    have hxy : y < x := by
      by_contra hge
      have : I * x ≤ I * y := mul_le_mul_of_nonneg_left (by omega) hI.le
      omega
    have hlen : cL = c + ((c :: cs).length - 1 : Nat) * I := by
      rw [← hlast, List.getLast_eq_getElem, hval]
    have hle : x - y ≤ ((c :: cs).length - 1 : Nat) := by
      by_contra hgt
      have e1 : I * (((c :: cs).length - 1 : Nat) : Int) < I * (x - y) := mul_lt_mul_of_pos_left (by omega) hI
      have e2 : I * (x - y) = v - c := by rw [hx, hy]; ring
      have e3 : (((c :: cs).length - 1 : Nat) : Int) * I = I * (((c :: cs).length - 1 : Nat) : Int) := mul_comm _ _
      omega
    obtain ⟨i, hi⟩ : ∃ i : Nat, (i : Int) = x - y - 1 := ⟨(x - y - 1).toNat, by omega⟩
    have hi1 : i + 1 < (c :: cs).length := by omega
    have hi2 : i < cs.length := by rw [List.length_cons] at hi1; omega
    rw [List.mem_iff_getElem]
    refine ⟨i, by rw [List.length_zip, List.length_cons]; omega, ?_⟩
    rw [List.getElem_zip]
    have g1 := hval i (by omega)
    have g2 := hval (i + 1) hi1
    rw [List.getElem_cons_succ] at g2
    rw [g1, g2]
    have e2 : I * (x - y) = v - c := by rw [hx, hy]; ring
    have e4 : (i : Int) * I = I * (x - y) - I := by rw [hi]; ring
    push_cast
    rw [Prod.mk.injEq]
    constructor
    · rw [e4, e2]; ring
    · rw [add_mul, one_mul, e4, e2]; ring
  have hpw : ((c :: cs).zip cs).Pairwise (fun p q => p.2 < q.2) := by
    rw [List.pairwise_iff_getElem]
    intro i j hi hj hij
    rw [List.length_zip, List.length_cons] at hi hj
    rw [List.getElem_zip, List.getElem_zip]
    have h1 := hval (i + 1) (by rw [List.length_cons]; omega)
    have h2 := hval (j + 1) (by rw [List.length_cons]; omega)
    rw [List.getElem_cons_succ] at h1 h2
    simp only
    rw [h1, h2]
    have : ((i + 1 : Nat) : Int) * I < ((j + 1 : Nat) : Int) * I :=
      mul_lt_mul_of_pos_right (by omega) hI
    omega
  -- the row of a clock pair
  obtain ⟨rowOf, hrow⟩ : ∃ rowOf : Int × Int → TBar K, rowOf = fun q =>
        let o := ohlcvBar (l.map (·.2.1)) (l.map (·.2.2)) ((searchRight (l.map (·.1)) q.1 : Int) - 1)
          ((searchRight (l.map (·.1)) q.2 : Int) - 1)
        ⟨q.2, o.opn, o.high, o.low, o.close, o.volume, o.trades, some o.vwap, o.median⟩ := ⟨_, rfl⟩
  have hrts : ∀ q, (rowOf q).ts = q.2 := by intro q; rw [hrow]
  rw [← hrow]
  have hrspec : ∀ q ∈ (c :: cs).zip cs,
      (rowOf q).volume = ((ticksIn l q.1 q.2).map (·.2.2)).sum ∧ (rowOf q).trades = (ticksIn l q.1 q.2).length ∧
      (rowOf q).vwap.getD 0 * (rowOf q).volume = ((ticksIn l q.1 q.2).map (fun t => t.2.1 * t.2.2)).sum ∧
      ((ticksTo l q.2).map (·.2.1)).getLast? = some (rowOf q).close ∧
      (ticksIn l q.1 q.2 ≠ [] → ((ticksIn l q.1 q.2).map (·.2.1)).head? = some (rowOf q).opn ∧
        (rowOf q).high ∈ (ticksIn l q.1 q.2).map (·.2.1) ∧ (rowOf q).low ∈ (ticksIn l q.1 q.2).map (·.2.1) ∧
        ∀ p ∈ (ticksIn l q.1 q.2).map (·.2.1), (rowOf q).low ≤ p ∧ p ≤ (rowOf q).high) ∧
      (ticksIn l q.1 q.2 = [] → (rowOf q).opn = (rowOf q).close ∧ (rowOf q).high = (rowOf q).close ∧
        (rowOf q).low = (rowOf q).close ∧ ticksTo l q.1 = ticksTo l q.2) := by
    intro q hq
    obtain ⟨p1, p2, p3⟩ := hpair q hq
    have hto : ticksTo l q.2 ≠ [] := by
      intro e
      have := List.filter_eq_nil_iff.mp e (l.head hne) (List.head_mem hne)
      simp only [decide_eq_true_eq] at this
      omega
    rw [hrow]
    exact fineBar_spec l hs hv q.1 q.2 (by omega) hto
  have hsorted : (((c :: cs).zip cs).map rowOf).Pairwise (fun a b => a.ts ≤ b.ts) := by
    rw [List.pairwise_map]
    exact hpw.imp (fun h => by rw [hrts, hrts]; omega)
  obtain ⟨-, r2, r3, -⟩ := C23_resample sortW d hd _ hsorted
  have hdvdlt : ∀ x y : Int, I ∣ x → I ∣ y → x < y → x + I ≤ y := by
    rintro x y ⟨p, rfl⟩ ⟨q, rfl⟩ h
    have : p < q := by
      by_contra hge
      have : I * q ≤ I * p := mul_le_mul_of_nonneg_left (by omega) hI.le
      omega
    have : I * (p + 1) ≤ I * q := mul_le_mul_of_nonneg_left (by omega) hI.le
    rw [mul_add, mul_one] at this
    exact this
  refine ⟨?_, ?_⟩
  swap
  · intro t ht htc
    have hv1 := Int.mul_ediv_add_emod (t.1 + I - 1) I
    have hv2 := Int.emod_nonneg (t.1 + I - 1) (ne_of_gt hI)
    have hv3 := Int.emod_lt_of_pos (t.1 + I - 1) hI
    obtain ⟨v, hvdef⟩ : ∃ v, v = I * ((t.1 + I - 1) / I) := ⟨_, rfl⟩
    rw [← hvdef] at hv1
    have hvL : v ≤ cL := by
      have h1 := hall t ht
      by_contra hgt
      have := hdvdlt cL v hdL ⟨_, hvdef⟩ (by omega)
      omega
    have hvm := hmem v (by omega) hvL ⟨_, hvdef⟩
    have hk1 := Int.mul_ediv_add_emod v d
    have hk2 := Int.emod_nonneg v (ne_of_gt hd)
    have hk3 := Int.emod_lt_of_pos v hd
    refine ⟨d * (v / d), ⟨by omega, ?_, ?_⟩, ?_⟩
    · have h1 : v < d * (v / d) + d := by omega
      have h2 := hdvdlt v (d * (v / d) + d) ⟨_, hvdef⟩
        (dvd_add (dvd_mul_of_dvd_left hId _) hId) h1
      omega
    · exact (r2 _).mpr ⟨⟨_, rfl⟩, rowOf (v - I, v), List.mem_map.mpr ⟨_, hvm, rfl⟩, by rw [hrts]; simp only; omega,
        by rw [hrts]; simp only; omega⟩
    · rintro k ⟨h1, h2, b, hb, rfl⟩
      obtain ⟨⟨y, hy⟩, -⟩ := (r2 b.ts).mp ⟨b, hb, rfl⟩
      have hvk : b.ts ≤ v ∧ v < b.ts + d := by
        refine ⟨?_, by omega⟩
        by_contra hlt
        have := hdvdlt v b.ts ⟨_, hvdef⟩ (dvd_trans hId ⟨y, hy⟩) (by omega)
        omega
      rw [hy] at hvk ⊢
      have g1 : y ≤ v / d := by
        by_contra hlt
        have : d * (v / d + 1) ≤ d * y := mul_le_mul_of_nonneg_left (by omega) hd.le
        rw [mul_add, mul_one] at this
        omega
      have g2 : v / d ≤ y := by
        by_contra hlt
        have : d * (y + 1) ≤ d * (v / d) := mul_le_mul_of_nonneg_left (by omega) hd.le
        rw [mul_add, mul_one] at this
        omega
      rw [le_antisymm g1 g2]
  intro b hb
  obtain ⟨hdb, -⟩ := (r2 b.ts).mp ⟨b, hb, rfl⟩
  have hIb : I ∣ b.ts := dvd_trans hId hdb
  have hagg := r3 b hb
  obtain ⟨Q, hQ⟩ : ∃ Q, Q = ((c :: cs).zip cs).filter (fun q => decide (b.ts ≤ q.2 ∧ q.2 < b.ts + d)) := ⟨_, rfl⟩
  have hgrp : (((c :: cs).zip cs).map rowOf).filter (fun r => decide (b.ts ≤ r.ts ∧ r.ts < b.ts + d)) = Q.map rowOf := by
    rw [List.filter_map, hQ]
    congr 1
    apply List.filter_congr
    intro q _
    simp only [Function.comp, hrts]
  rw [hgrp] at hagg
  have hflat := flatMap_windows l hs I d b.ts hI hId hIb cs c k2 hdc
  rw [← hQ, hlast] at hflat
  have hQmem : ∀ q, q ∈ Q ↔ q ∈ (c :: cs).zip cs ∧ b.ts ≤ q.2 ∧ q.2 < b.ts + d := by
    intro q; rw [hQ, List.mem_filter, decide_eq_true_eq]
  have hQub : ∀ q ∈ Q, q.2 ≤ b.ts + d - I := by
    intro q hq
    obtain ⟨h1, h2, h3⟩ := (hQmem q).mp hq
    have := hdvdlt q.2 (b.ts + d) (hpair q h1).2.2 (dvd_add hIb hId) h3
    omega
  have hQne : Q ≠ [] := by
    intro e
    have := hagg.opn
    rw [e] at this; simp at this
  have hQpw : Q.Pairwise (fun p q => p.2 < q.2) := by rw [hQ]; exact hpw.filter _
  -- the first pair of the group
  obtain ⟨q0, Q', hq0⟩ : ∃ q0 Q', Q = q0 :: Q' := by
    cases hQc : Q with
    | nil => exact absurd hQc hQne
    | cons a b => exact ⟨a, b, rfl⟩
  have hq0m : q0 ∈ Q := by rw [hq0]; simp
  have hq0min : ∀ q ∈ Q, q0.2 ≤ q.2 := by
    intro q hq
    rw [hq0] at hq hQpw
    rcases List.mem_cons.mp hq with rfl | hq
    · exact le_refl _
    · exact le_of_lt ((List.pairwise_cons.mp hQpw).1 q hq)
  have hstart : q0.1 = max (b.ts - I) c := by
    obtain ⟨h1, h2, h3⟩ := (hQmem q0).mp hq0m
    obtain ⟨p1, p2, p3⟩ := hpair q0 h1
    rw [p1]
    by_contra hcon
    have hgt : b.ts < q0.2 ∧ c + I < q0.2 := by
      rcases le_total (b.ts - I) c with h | h
      · rw [max_eq_right h] at hcon; omega
      · rw [max_eq_left h] at hcon; omega
    have g1 := hdvdlt _ _ hIb p3 hgt.1
    have hub := List.of_mem_zip h1
    have hv2 : q0.2 ≤ cL := by
      obtain ⟨i, hi, e⟩ := List.getElem_of_mem hub.2
      have e1 := hval (i + 1) (by rw [List.length_cons]; omega)
      rw [List.getElem_cons_succ, e] at e1
      have e2 : cL = c + ((c :: cs).length - 1 : Nat) * I := by
        rw [← hlast, List.getLast_eq_getElem, hval]
      rw [e1, e2]
      have : ((i + 1 : Nat) : Int) * I ≤ (((c :: cs).length - 1 : Nat) : Int) * I :=
        mul_le_mul_of_nonneg_right (by rw [List.length_cons]; omega) hI.le
      omega
    have := hmem (q0.2 - I) (by omega) (by omega) (dvd_sub p3 (dvd_refl I))
    have := hq0min _ ((hQmem _).mpr ⟨this, by simp only; omega, by simp only; omega⟩)
    simp only at this
    omega
  have hq0s : q0.2 = q0.1 + I := by
    have := (hpair q0 ((hQmem q0).mp hq0m).1).1
    omega
  have hwin : Q.flatMap (fun q => ticksIn l q.1 q.2) = ticksIn l (max (b.ts - I) c) (b.ts + d - I) := by
    rw [hflat]
    unfold ticksIn
    rw [List.filter_filter]
    apply List.filter_congr
    intro t ht
    have := hall t ht
    rw [← Bool.decide_and, decide_eq_decide]
    constructor
    · rintro ⟨⟨h1, h2⟩, h3, h4⟩; exact ⟨max_lt h1 h3, h2⟩
    · rintro ⟨h1, h2⟩
      exact ⟨⟨lt_of_le_of_lt (le_max_left _ _) h1, h2⟩, lt_of_le_of_lt (le_max_right _ _) h1, this⟩
  have hQz : ∀ q ∈ Q, q ∈ (c :: cs).zip cs := fun q hq => ((hQmem q).mp hq).1
  have hsub : ∀ q ∈ Q, ∀ t ∈ ticksIn l q.1 q.2, t ∈ ticksIn l (max (b.ts - I) c) (b.ts + d - I) := by
    intro q hq t ht
    rw [← hwin]
    exact List.mem_flatMap.mpr ⟨q, hq, ht⟩
  have hopn : (rowOf q0).opn = b.opn := by
    have := hagg.opn
    rw [hq0] at this
    simpa using this
  have hstale : ticksIn l q0.1 q0.2 = [] → ((ticksTo l q0.1).map (·.2.1)).getLast? = some b.opn := by
    intro h
    obtain ⟨-, -, -, a4, -, a6⟩ := hrspec q0 (hQz q0 hq0m)
    obtain ⟨e1, -, -, e4⟩ := a6 h
    rw [e4, a4, ← e1, hopn]
  -- every value of a fine bar is the open of the row or a price of the window
  have hvals : ∀ q ∈ Q, ((rowOf q).close = b.opn ∨ ∃ t ∈ ticksIn l (max (b.ts - I) c) (b.ts + d - I),
      t.2.1 = (rowOf q).close) := by
    intro q hq
    obtain ⟨-, -, -, a4, -, -⟩ := hrspec q (hQz q hq)
    by_cases hw : ticksIn l q0.1 q.2 = []
    · left
      have e0 : ticksIn l q0.1 q0.2 = [] := by
        rw [List.eq_nil_iff_forall_not_mem]
        intro t ht
        have : t ∈ ticksIn l q0.1 q.2 := by
          unfold ticksIn at ht ⊢
          rw [List.mem_filter, decide_eq_true_eq] at ht ⊢
          exact ⟨ht.1, ht.2.1, le_trans ht.2.2 (hq0min q hq)⟩
        rw [hw] at this; simp at this
      have e1 : ticksTo l q0.1 = ticksTo l q.2 := by
        unfold ticksTo
        apply List.filter_congr
        intro t ht
        rw [decide_eq_decide]
        constructor
        · intro h; have := hq0min q hq; omega
        · intro h
          by_contra hlt
          have : t ∈ ticksIn l q0.1 q.2 := by
            unfold ticksIn
            rw [List.mem_filter, decide_eq_true_eq]
            exact ⟨ht, by omega, h⟩
          rw [hw] at this; simp at this
      have := hstale e0
      rw [e1, a4] at this
      exact Option.some.inj this
    · right
      -- the last trade up to `q.2` lies in the window
      have hlastm : ∃ t ∈ ticksIn l q0.1 q.2, t.2.1 = (rowOf q).close := by
        have hle : q0.1 ≤ q.2 := by have := hq0min q hq; omega
        have hsp := ticksTo_append l hs q0.1 q.2 hle
        rw [← hsp, List.map_append, List.getLast?_append_of_ne_nil _ (by simpa using hw), List.getLast?_map] at a4
        obtain ⟨t, ht, e⟩ := Option.map_eq_some_iff.mp a4
        exact ⟨t, List.mem_of_getLast? ht, e⟩
      obtain ⟨t, ht, e⟩ := hlastm
      refine ⟨t, ?_, e⟩
      unfold ticksIn at ht ⊢
      rw [List.mem_filter, decide_eq_true_eq] at ht ⊢
      rw [← hstart]
      exact ⟨ht.1, ht.2.1, le_trans ht.2.2 (hQub q hq)⟩
  have hmax : ∀ q ∈ Q, (rowOf q).high = (rowOf q).close ∨ ∃ t ∈ ticksIn l q.1 q.2, t.2.1 = (rowOf q).high := by
    intro q hq
    obtain ⟨-, -, -, -, a5, a6⟩ := hrspec q (hQz q hq)
    by_cases hw : ticksIn l q.1 q.2 = []
    · exact Or.inl (a6 hw).2.1
    · obtain ⟨t, ht, e⟩ := List.mem_map.mp (a5 hw).2.1
      exact Or.inr ⟨t, ht, e⟩
  have hmin : ∀ q ∈ Q, (rowOf q).low = (rowOf q).close ∨ ∃ t ∈ ticksIn l q.1 q.2, t.2.1 = (rowOf q).low := by
    intro q hq
    obtain ⟨-, -, -, -, a5, a6⟩ := hrspec q (hQz q hq)
    by_cases hw : ticksIn l q.1 q.2 = []
    · exact Or.inl (a6 hw).2.2.1
    · obtain ⟨t, ht, e⟩ := List.mem_map.mp (a5 hw).2.2.1
      exact Or.inr ⟨t, ht, e⟩
  have hopnb : (rowOf q0).low ≤ b.opn ∧ b.opn ≤ (rowOf q0).high := by
    obtain ⟨-, -, -, -, a5, a6⟩ := hrspec q0 (hQz q0 hq0m)
    rw [← hopn]
    by_cases hw : ticksIn l q0.1 q0.2 = []
    · obtain ⟨e1, e2, e3, -⟩ := a6 hw
      rw [e1, e2, e3]; exact ⟨le_refl _, le_refl _⟩
    · obtain ⟨e1, -, -, e4⟩ := a5 hw
      exact e4 _ (List.mem_of_head? e1)
  have hsum : ∀ f : Int × K × K → K, ((Q.flatMap (fun q => ticksIn l q.1 q.2)).map f).sum =
      (Q.map (fun q => ((ticksIn l q.1 q.2).map f).sum)).sum := by
    intro f
    clear * -
    induction Q with
    | nil => rfl
    | cons q Q ih => rw [List.flatMap_cons, List.map_append, List.sum_append, ih, List.map_cons, List.sum_cons]
  have hvol : b.volume = ((ticksIn l (max (b.ts - I) c) (b.ts + d - I)).map (·.2.2)).sum := by
    rw [hagg.volume, ← hwin, hsum, List.map_map]
    congr 1
    apply List.map_congr_left
    intro q hq
    exact (hrspec q (hQz q hq)).1
  refine ⟨hvol, ?_, ?_, hagg.vwap_nan, ?_, ?_, ?_, ?_, ⟨?_, ?_⟩, ?_, ⟨?_, ?_⟩⟩
  · rw [hagg.trades, ← hwin, List.length_flatMap, List.map_map]
    have : (Q.map ((·.trades) ∘ rowOf)) = (Q.map (fun q => (ticksIn l q.1 q.2).length)).map (fun n : Nat => (n : Int)) := by
      rw [List.map_map]
      apply List.map_congr_left
      intro q hq
      exact (hrspec q (hQz q hq)).2.1
    rw [this]
    clear * -
    generalize Q.map (fun q => (ticksIn l q.1 q.2).length) = ns
    induction ns with
    | nil => rfl
    | cons n ns ih => rw [List.map_cons, List.sum_cons, List.sum_cons, ih]; push_cast; rfl
  · intro h0
    obtain ⟨w, hw, e⟩ := hagg.vwap h0
    refine ⟨w, hw, ?_⟩
    rw [e, ← hwin, hsum, List.map_map]
    congr 1
    apply List.map_congr_left
    intro q hq
    exact (hrspec q (hQz q hq)).2.2.1
  · intro hw
    rw [← hstart, ← hq0s] at hw
    obtain ⟨-, -, -, -, a5, -⟩ := hrspec q0 (hQz q0 hq0m)
    rw [← hwin, hq0, List.flatMap_cons, List.map_append, List.head?_append_of_ne_nil _ (by simpa using hw),
      (a5 hw).1, hopn]
  · intro hw
    rw [← hstart, ← hq0s] at hw
    rw [← hstart]
    exact hstale hw
  · have hcl' := hagg.close
    rw [List.map_map, List.getLast?_map] at hcl'
    obtain ⟨q, hq, e⟩ := Option.map_eq_some_iff.mp hcl'
    have hqm : q ∈ Q := List.mem_of_getLast? hq
    have hqmax : ∀ r ∈ Q, r.2 ≤ q.2 := by
      intro r hr
      obtain ⟨ys, hys⟩ := List.getLast?_eq_some_iff.mp hq
      rw [hys] at hr hQpw
      rcases List.mem_append.mp hr with h | h
      · exact le_of_lt ((List.pairwise_append.mp hQpw).2.2 r h q (by simp))
      · simp only [List.mem_singleton] at h
        rw [h]
    obtain ⟨-, -, -, a4, -, -⟩ := hrspec q (hQz q hqm)
    have e1 : ticksTo l (b.ts + d - I) = ticksTo l q.2 := by
      unfold ticksTo
      apply List.filter_congr
      intro t ht
      rw [decide_eq_decide]
      refine ⟨fun h => ?_, fun h => le_trans h (hQub q hqm)⟩
      by_cases hlo : max (b.ts - I) c < t.1
      · have : t ∈ ticksIn l (max (b.ts - I) c) (b.ts + d - I) := by
          unfold ticksIn
          rw [List.mem_filter, decide_eq_true_eq]
          exact ⟨ht, hlo, h⟩
        rw [← hwin] at this
        obtain ⟨r, hr, hr2⟩ := List.mem_flatMap.mp this
        have := (of_decide_eq_true (List.mem_filter.mp hr2).2).2
        exact le_trans this (hqmax r hr)
      · have := hqmax q0 hq0m
        rw [← hstart] at hlo
        omega
    rw [e1, a4]
    exact congrArg some e
  · obtain ⟨r, hr, e⟩ := hagg.high_mem
    obtain ⟨q, hq, rfl⟩ := List.mem_map.mp hr
    rw [← e]
    rcases hmax q hq with h | ⟨t, ht, h⟩
    · rw [h]; exact hvals q hq
    · exact Or.inr ⟨t, hsub q hq t ht, h⟩
  · exact le_trans hopnb.2 (hagg.high_max _ (List.mem_map.mpr ⟨q0, hq0m, rfl⟩))
  · intro t ht
    rw [← hwin] at ht
    obtain ⟨q, hq, htq⟩ := List.mem_flatMap.mp ht
    obtain ⟨-, -, -, -, a5, -⟩ := hrspec q (hQz q hq)
    exact le_trans ((a5 (List.ne_nil_of_mem htq)).2.2.2 _ (List.mem_map.mpr ⟨t, htq, rfl⟩)).2
      (hagg.high_max _ (List.mem_map.mpr ⟨q, hq, rfl⟩))
  · obtain ⟨r, hr, e⟩ := hagg.low_mem
    obtain ⟨q, hq, rfl⟩ := List.mem_map.mp hr
    rw [← e]
    rcases hmin q hq with h | ⟨t, ht, h⟩
    · rw [h]; exact hvals q hq
    · exact Or.inr ⟨t, hsub q hq t ht, h⟩
  · exact le_trans (hagg.low_min _ (List.mem_map.mpr ⟨q0, hq0m, rfl⟩)) hopnb.1
  · intro t ht
    rw [← hwin] at ht
    obtain ⟨q, hq, htq⟩ := List.mem_flatMap.mp ht
    obtain ⟨-, -, -, -, a5, -⟩ := hrspec q (hQz q hq)
    exact le_trans (hagg.low_min _ (List.mem_map.mpr ⟨q, hq, rfl⟩))
      ((a5 (List.ne_nil_of_mem htq)).2.2.2 _ (List.mem_map.mpr ⟨t, htq, rfl⟩)).1

/- Non-vacuity: fine interval 10, coarse interval 30, trades at 11, 25, 35, 62.  The row labelled 30 covers (20, 50]; the
row labelled 60 begins with an interval without a trade and opens at the last price. -/
def resampleDemo : List (Int × ℚ × ℚ) := [(11, 1, 2), (25, 5, 1), (35, 3, 1), (62, 4, 1)]
example : (buildTimeBars (resampleDemo.map (·.1)) (resampleDemo.map (·.2.1)) (resampleDemo.map (·.2.2)) 10).toOption.map
    (fun rows => (resample sortBySize 30 rows).map (fun b => (b.ts, [b.opn, b.high, b.low, b.close, b.volume]))) =
    some [(0, [1, 1, 1, 1, 2]), (30, [5, 5, 3, 3, 2]), (60, [3, 4, 3, 4, 1])] := by decide +kernel
example : ticksIn resampleDemo (max (30 - 10) 10) (30 + 30 - 10) = [(25, 5, 1), (35, 3, 1)] ∧
    ticksIn resampleDemo (max (60 - 10) 10) (max (60 - 10) 10 + 10) = [] := by decide +kernel

/-- **C121 (opens).** If the first fine interval of a row has a trade, the row is the plain summary of its
trades: first and last price, extremes attained by its trades. -/
theorem C121_no_gaps (sortW : List (K × Int) → List (K × Int)) (l : List (Int × K × K)) (I d : Int) (hI : 0 < I)
    (hd : 0 < d) (hId : I ∣ d) (hne : l ≠ []) (hs : l.Pairwise (fun a b => a.1 ≤ b.1)) (hv : ∀ t ∈ l, 0 ≤ t.2.2)
    (rows : List (TBar K))
    (hr : buildTimeBars (l.map (·.1)) (l.map (·.2.1)) (l.map (·.2.2)) I = .ok rows) (b : TBar K)
    (hb : b ∈ resample sortW d rows)
    (hgap : ticksIn l (max (b.ts - I) ((l.head hne).1 / I * I)) (max (b.ts - I) ((l.head hne).1 / I * I) + I) ≠ []) :
    let w := ticksIn l (max (b.ts - I) ((l.head hne).1 / I * I)) (b.ts + d - I)
    (w.map (·.2.1)).head? = some b.opn ∧ (w.map (·.2.1)).getLast? = some b.close ∧
    b.high ∈ w.map (·.2.1) ∧ b.low ∈ w.map (·.2.1) ∧ ∀ p ∈ w.map (·.2.1), b.low ≤ p ∧ p ≤ b.high := by
  intro w
  obtain ⟨rows', hr', hall, -⟩ := C121_resampled_rows sortW l I d hI hd hId hne hs hv
  rw [hr] at hr'
  cases Except.ok.inj hr'
  have h := hall b hb
  have ho := h.open_trade hgap
  have hom : ∃ t ∈ w, t.2.1 = b.opn := by
    obtain ⟨t, ht, e⟩ := List.mem_map.mp (List.mem_of_head? ho)
    exact ⟨t, ht, e⟩
  have hwne : w ≠ [] := by
    obtain ⟨t, ht, -⟩ := hom
    exact List.ne_nil_of_mem ht
  have hle : max (b.ts - I) ((l.head hne).1 / I * I) ≤ b.ts + d - I := by
    obtain ⟨t, ht⟩ := List.exists_mem_of_ne_nil _ hwne
    have := of_decide_eq_true (List.mem_filter.mp ht).2
    omega
  refine ⟨ho, ?_, ?_, ?_, ?_⟩
  · have := h.close
    rw [← ticksTo_append l hs _ _ hle, List.map_append, List.getLast?_append_of_ne_nil _ (by simpa using hwne)] at this
    exact this
  · rcases h.high_mem with e | ⟨t, ht, e⟩
    · obtain ⟨t, ht, e'⟩ := hom
      exact List.mem_map.mpr ⟨t, ht, by rw [e, e']⟩
    · exact List.mem_map.mpr ⟨t, ht, e⟩
  · rcases h.low_mem with e | ⟨t, ht, e⟩
    · obtain ⟨t, ht, e'⟩ := hom
      exact List.mem_map.mpr ⟨t, ht, by rw [e, e']⟩
    · exact List.mem_map.mpr ⟨t, ht, e⟩
  · intro p hp
    obtain ⟨t, ht, rfl⟩ := List.mem_map.mp hp
    exact ⟨h.low_min.2 t ht, h.high_max.2 t ht⟩

end FinML

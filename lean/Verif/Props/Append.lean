/-
C117: what happens to the tables of a bar builder when trades are appended to the data (`finmlkit/bar/kit.py`,
`finmlkit/bar/base.py`).
-/
import Verif.Lemmas.Float64
import Verif.Props.BarKit
import Verif.Props.Directional
import Verif.Props.CusumShared
import Verif.Props.ThresholdBars
import Verif.Props.TimeBars
import Verif.Props.KitCausal
import Verif.Model.TickSize

set_option linter.unusedSectionVars false

namespace FinML

variable {K : Type} [Field K] [LinearOrder K] [IsStrictOrderedRing K]

/-- Two tables of trades, one after the other. -/
def KitTrades.append (tr more : KitTrades K) : KitTrades K :=
  ⟨tr.ts ++ more.ts, tr.prices ++ more.prices, tr.amounts ++ more.amounts, tr.sides ++ more.sides⟩

/-- The four columns have the same length `n`. -/
structure KitTrades.HasLength (tr : KitTrades K) (n : Nat) : Prop where
  ts : tr.ts.length = n
  prices : tr.prices.length = n
  amounts : tr.amounts.length = n
  sides : tr.sides.length = n

/-- The builder for the longer data: same thresholds; the volatility array of CUSUM bars is extended too, has at least one
number for the earlier trades, and the first new trade is not at the time of the last earlier trade. -/
def KitKind.Extends (tr more : KitTrades K) : KitKind K → KitKind K → Prop
  | .tick T, .tick T' => T = T'
  | .volume T, .volume T' => T = T'
  | .dollar T, .dollar T' => T = T'
  | .cusum sigma f m, .cusum sigma' f' m' => f = f' ∧ m = m' ∧ sigma.length = tr.ts.length ∧
      (∃ s ∈ sigma, s ≠ none) ∧ (∃ x : List (Option K), x.length = more.ts.length ∧ sigma' = sigma ++ x) ∧
      (∀ t ∈ more.ts.head?, tr.ts.getLast? ≠ some t)
  | _, _ => False

/-- The same call on the longer data: typical trade sizes are extended, and the tick size is given. -/
def KitCall.Extends : KitCall K → KitCall K → Prop
  | .closeIndices, .closeIndices => True
  | .closeTimestamps, .closeTimestamps => True
  | .ohlcv, .ohlcv => True
  | .directional, .directional => True
  | .tradeSize th m, .tradeSize th' m' => m = m' ∧ th <+: th'
  | .footprints (some t) m, .footprints (some t') m' => t = t' ∧ m = m'
  | _, _ => False

/-- The first result is the beginning of the second, row by row. -/
def KitOut.StartOf : KitOut K → KitOut K → Prop
  | .ints a, .ints b => a <+: b
  | .bars a, .bars b => a <+: b
  | .dirs a, .dirs b => a <+: b
  | .sizes a, .sizes b => a <+: b
  | .fps ts t l, .fps ts' t' l' => ts <+: ts' ∧ t = t' ∧ l <+: l'
  | _, _ => False

theorem closePairs_prefix (d e : List Int) (h : d <+: e) : closePairs d <+: closePairs e := by
  obtain ⟨r, rfl⟩ := h
  induction d with
  | nil => simp [closePairs]
  | cons a l ih =>
    cases l with
    | nil => simp [closePairs]
    | cons b l =>
      have h1 : closePairs (a :: b :: l) = (a, b) :: closePairs (b :: l) := rfl
      have h2 : closePairs (a :: b :: l ++ r) = (a, b) :: closePairs (b :: l ++ r) := rfl
      rw [h1, h2, List.cons_prefix_cons]
      exact ⟨rfl, ih⟩

theorem mapPairs_prefix {A : Type} (f g : Int × Int → A) (d e : List Int) (h : d <+: e)
    (hfg : ∀ p ∈ closePairs d, f p = g p) : (closePairs d).map f <+: (closePairs e).map g := by
  obtain ⟨r, hr⟩ := closePairs_prefix d e h
  refine ⟨r.map g, ?_⟩
  rw [← hr, List.map_append, List.map_congr_left hfg]

theorem closePairs_mem (d : List Int) (n : Nat) (h : d.Pairwise (· ≤ ·)) (hl : ∀ x ∈ d, -1 ≤ x) (hu : ∀ x ∈ d, x < n) :
    ∀ p ∈ closePairs d, -1 ≤ p.1 ∧ p.1 ≤ p.2 ∧ p.2 < n ∧ d.head?.getD 0 ≤ p.1 := by
  induction d with
  | nil => simp [closePairs]
  | cons a l ih =>
    cases l with
    | nil => simp [closePairs]
    | cons b l =>
      have h1 : closePairs (a :: b :: l) = (a, b) :: closePairs (b :: l) := rfl
      rw [h1]
      have hab : a ≤ b := (List.pairwise_cons.mp h).1 b (by simp)
      intro p hp
      rcases List.mem_cons.mp hp with rfl | hp
      · exact ⟨hl _ (by simp), hab, hu _ (by simp), by simp⟩
      · obtain ⟨x1, x2, x3, x4⟩ := ih (List.pairwise_cons.mp h).2 (fun x hx => hl x (by simp [hx]))
          (fun x hx => hu x (by simp [hx])) p hp
        refine ⟨x1, x2, x3, ?_⟩
        simp only [List.head?_cons, Option.getD_some] at x4 ⊢
        omega

theorem zip_prefix {A B : Type} (a a' : List A) (b b' : List B) (hl : a.length = b.length) (h : a <+: a') (h' : b <+: b') :
    a.zip b <+: a'.zip b' := by
  obtain ⟨r, rfl⟩ := h
  obtain ⟨s, rfl⟩ := h'
  rw [List.zip_append hl]
  exact List.prefix_append _ _

theorem tail_prefix {A : Type} (a b : List A) (h : a <+: b) : a.tail <+: b.tail := by
  obtain ⟨r, rfl⟩ := h
  cases a with
  | nil => simp
  | cons x a => exact List.prefix_append _ _

theorem pyGet_append_lt {α : Type} (xs ys : List α) (d : α) (j : Int) (h1 : 0 ≤ j) (h2 : j < xs.length) :
    pyGet (xs ++ ys) d j = pyGet xs d j := by
  rw [pyGet_nonneg _ _ _ h1, pyGet_nonneg _ _ _ h1, List.getD_eq_getElem?_getD, List.getD_eq_getElem?_getD,
    List.getElem?_append_left (by omega)]

theorem footprintTrades_append (tr more : KitTrades K) (n : Nat) (hn : tr.HasLength n) (a b : Int) (ha : -1 ≤ a)
    (hb : b < n) :
    footprintTrades (tr.prices ++ more.prices) (tr.amounts ++ more.amounts) (tr.sides ++ more.sides) a b =
      footprintTrades tr.prices tr.amounts tr.sides a b := by
  unfold footprintTrades
  apply List.map_congr_left
  intro j hj
  rw [mem_idxRange] at hj
  rw [pyGet_append_lt _ _ _ _ (by omega) (by rw [hn.prices]; omega),
    pyGet_append_lt _ _ _ _ (by omega) (by rw [hn.amounts]; omega),
    pyGet_append_lt _ _ _ _ (by omega) (by rw [hn.sides]; omega)]

theorem barSlice_append (xs ys : List K) (a b : Int) (ha : -1 ≤ a) (hab : a ≤ b) (hb : b < xs.length) :
    barSlice (xs ++ ys) a b = barSlice xs a b := by
  unfold barSlice
  rw [List.drop_append_of_le_length (by omega), List.take_append_of_le_length (by simp; omega)]

theorem footprints_prefix (rnd : K → Int) (m : K) (tr tr' : KitTrades K) (cs : List (Int × Int))
    (hsame : ∀ c ∈ cs, footprintTrades tr'.prices tr'.amounts tr'.sides c.1 c.2 =
      footprintTrades tr.prices tr.amounts tr.sides c.1 c.2) :
    ∀ (los his : List K) (rs : List (Int × Int)) (rl rh : List K) (fps fps' : List (Footprint K)),
      los.length = cs.length → his.length = cs.length →
      compBarFootprints rnd m tr cs los his = .ok fps →
      compBarFootprints rnd m tr' (cs ++ rs) (los ++ rl) (his ++ rh) = .ok fps' → fps <+: fps' := by
  induction cs with
  | nil =>
    intro los his rs rl rh fps fps' h1 h2 h3 h4
    have : fps = [] := by
      have : los = [] := by simpa using h1
      subst this
      simp only [compBarFootprints, Except.ok.injEq] at h3
      exact h3.symm
    rw [this]; exact List.nil_prefix
  | cons c cs ih =>
    intro los his rs rl rh fps fps' h1 h2 h3 h4
    obtain ⟨lo, los, rfl⟩ := List.exists_cons_of_length_eq_add_one h1
    obtain ⟨hi, his, rfl⟩ := List.exists_cons_of_length_eq_add_one h2
    simp only [List.cons_append, compBarFootprints] at h3 h4
    rw [hsame c (by simp)] at h4
    cases hf : footprintBar rnd m lo hi (footprintTrades tr.prices tr.amounts tr.sides c.1 c.2) with
    | error e => rw [hf] at h3; simp at h3
    | ok fp =>
      rw [hf] at h3 h4
      simp only at h3 h4
      cases hr : compBarFootprints rnd m tr cs los his with
      | error e => rw [hr] at h3; simp at h3
      | ok r =>
        cases hr' : compBarFootprints rnd m tr' (cs ++ rs) (los ++ rl) (his ++ rh) with
        | error e => rw [hr'] at h4; simp at h4
        | ok r' =>
          rw [hr] at h3
          rw [hr'] at h4
          simp only [Except.ok.injEq] at h3 h4
          rw [← h3, ← h4, List.cons_prefix_cons]
          exact ⟨rfl, ih (fun c hc => hsame c (by simp [hc])) los his rs rl rh r r' (by simpa using h1) (by simpa using h2)
            hr hr'⟩

/-- The rows of every table are a prefix as soon as the closes are. -/
theorem pureCall_startOf (log log1p : K → K) (rndOf : K → K → Int) (inferTick : List K → Except String K)
    (tr more : KitTrades K) (n : Nat) (hn : tr.HasLength n) (kind kind' : KitKind K)
    (c c' : List Int × List Int) (hc : compBarClose log tr kind = .ok c)
    (hc' : compBarClose log (tr.append more) kind' = .ok c') (h1 : c.1 <+: c'.1) (h2 : c.2 <+: c'.2)
    (hlen : c.1.length = c.2.length) (hm : c.2.Pairwise (· ≤ ·)) (hlo : ∀ x ∈ c.2, 0 ≤ x) (hup : ∀ x ∈ c.2, x < n)
    (call call' : KitCall K) (hcall : call.Extends call') (o o' : KitOut K)
    (ho : pureCall log log1p rndOf inferTick tr kind call = .ok o)
    (ho' : pureCall log log1p rndOf inferTick (tr.append more) kind' call' = .ok o') : o.StartOf o' := by
  have hpair := closePairs_mem c.2 n hm (fun x hx => by have := hlo x hx; omega) hup
  have hnn : ∀ p ∈ closePairs c.2, 0 ≤ p.1 := by
    intro p hp
    apply hlo
    unfold closePairs at hp
    exact (List.of_mem_zip (a := p.1) (b := p.2) hp).1
  have hbars : ∀ bars bars', compBarOhlcv tr.prices tr.amounts c.2 = .ok bars →
      compBarOhlcv (tr.append more).prices (tr.append more).amounts c'.2 = .ok bars' → bars <+: bars' ∧
        bars.length = (closePairs c.2).length := by
    intro bars bars' hb hb'
    unfold compBarOhlcv at hb hb'
    split_ifs at hb hb'
    simp only [Except.ok.injEq] at hb hb'
    rw [← hb, ← hb']
    refine ⟨mapPairs_prefix _ _ _ _ h2 ?_, by simp⟩
    intro p hp
    obtain ⟨x1, x2, x3, _⟩ := hpair p hp
    exact (C09_ohlcv_no_lookahead tr.prices tr.amounts more.prices more.amounts p.1 p.2
      (by rw [hn.prices, hn.amounts]) (by have := hnn p hp; omega) x1 x2 (by rw [hn.prices]; exact x3)).symm
  unfold pureCall at ho ho'
  rw [hc] at ho
  rw [hc'] at ho'
  have ht : c.1.tail.length = (closePairs c.2).length := by rw [closePairs_length]; simp [hlen]
  cases call with
  | closeIndices =>
    cases call' <;> simp only [KitCall.Extends] at hcall
    simp only [Except.ok.injEq] at ho ho'
    subst ho; subst ho'
    exact tail_prefix _ _ h2
  | closeTimestamps =>
    cases call' <;> simp only [KitCall.Extends] at hcall
    simp only [Except.ok.injEq] at ho ho'
    subst ho; subst ho'
    exact tail_prefix _ _ h1
  | ohlcv =>
    cases call' <;> simp only [KitCall.Extends] at hcall
    simp only at ho ho'
    cases hb : compBarOhlcv tr.prices tr.amounts c.2 with
    | error e => rw [hb] at ho; simp at ho
    | ok bars =>
      cases hb' : compBarOhlcv (tr.append more).prices (tr.append more).amounts c'.2 with
      | error e => rw [hb'] at ho'; simp at ho'
      | ok bars' =>
        rw [hb] at ho
        rw [hb'] at ho'
        simp only [Except.ok.injEq] at ho ho'
        subst ho; subst ho'
        obtain ⟨q1, q2⟩ := hbars bars bars' hb hb'
        exact zip_prefix _ _ _ _ (by rw [ht, q2]) (tail_prefix _ _ h1) q1
  | directional =>
    cases call' <;> simp only [KitCall.Extends] at hcall
    simp only [Except.ok.injEq] at ho ho'
    subst ho; subst ho'
    refine zip_prefix _ _ _ _ (by rw [ht]; simp [compBarDirectional]) (tail_prefix _ _ h1) ?_
    unfold compBarDirectional
    refine mapPairs_prefix _ _ _ _ h2 ?_
    intro p hp
    obtain ⟨x1, x2, x3, _⟩ := hpair p hp
    exact ((C12_directional_no_lookahead_partial tr.prices tr.amounts more.prices more.amounts tr.sides more.sides p.1 p.2
      (by rw [hn.prices, hn.amounts]) (by rw [hn.prices, hn.sides]) x1 x2 (by rw [hn.prices]; exact x3)).2
      (hnn p hp)).symm
  | tradeSize th m =>
    cases call' with
    | tradeSize th' m' =>
      obtain ⟨rfl, hth⟩ := hcall
      simp only at ho ho'
      unfold compBarTradeSize asTable at ho ho'
      by_cases hl : (th.length : Int) ≠ c.2.length - 1
      · rw [if_pos hl] at ho; simp at ho
      by_cases hl' : (th'.length : Int) ≠ c'.2.length - 1
      · rw [if_pos hl'] at ho'; simp at ho'
      rw [if_neg hl] at ho
      rw [if_neg hl'] at ho'
      simp only at ho ho'
      split_ifs at ho ho'
      all_goals simp only [Except.ok.injEq] at ho ho'
      rename_i hz hz'
      subst ho; subst ho'
      refine zip_prefix _ _ _ _ (by simpa using hz) (tail_prefix _ _ h1) ?_
      obtain ⟨x, rfl⟩ := hth
      obtain ⟨y, hy⟩ := closePairs_prefix _ _ h2
      have hlt : th.length = (closePairs c.2).length := by
        rw [closePairs_length]
        push Not at hl
        omega
      rw [← hy, List.zipWith_append hlt]
      refine ⟨_, congrArg (· ++ _) ?_⟩
      apply List.ext_getElem?
      intro i
      simp only [List.getElem?_zipWith]
      by_cases hi : i < (closePairs c.2).length
      · rw [List.getElem?_eq_getElem hi]
        obtain ⟨x1, x2, x3, _⟩ := hpair _ (List.getElem_mem hi)
        have := barSlice_append tr.amounts more.amounts _ _ x1 x2 (by rw [hn.amounts]; exact x3)
        cases th[i]? <;> simp only [KitTrades.append, this]
      · rw [List.getElem?_eq_none (by omega)]
    | _ => exact hcall.elim
  | footprints tick m =>
    cases call' with
    | footprints tick' m' =>
      cases tick with
      | none => exact hcall.elim
      | some t =>
        cases tick' with
        | none => exact hcall.elim
        | some t' =>
          obtain ⟨rfl, rfl⟩ := hcall
          simp only [chosenTick] at ho ho'
          cases hb : compBarOhlcv tr.prices tr.amounts c.2 with
          | error e => rw [hb] at ho; simp at ho
          | ok bars =>
            cases hb' : compBarOhlcv (tr.append more).prices (tr.append more).amounts c'.2 with
            | error e => rw [hb'] at ho'; simp at ho'
            | ok bars' =>
              rw [hb] at ho
              rw [hb'] at ho'
              obtain ⟨⟨q, rfl⟩, q2⟩ := hbars bars bars' hb hb'
              obtain ⟨y, hy⟩ := closePairs_prefix _ _ h2
              rw [← hy] at ho'
              simp only [List.map_append] at ho ho'
              cases hf : compBarFootprints (rndOf t) m tr (closePairs c.2) (bars.map (·.low)) (bars.map (·.high)) with
              | error e => rw [hf] at ho; simp at ho
              | ok fps =>
                cases hf' : compBarFootprints (rndOf t) m (tr.append more) (closePairs c.2 ++ y)
                    (bars.map (·.low) ++ q.map (·.low)) (bars.map (·.high) ++ q.map (·.high)) with
                | error e => rw [hf'] at ho'; simp at ho'
                | ok fps' =>
                  rw [hf] at ho
                  rw [hf'] at ho'
                  simp only [Except.ok.injEq] at ho ho'
                  subst ho; subst ho'
                  refine ⟨tail_prefix _ _ h1, rfl, ?_⟩
                  refine footprints_prefix (rndOf t) m tr (tr.append more) (closePairs c.2) ?_ _ _ _ _ _ _ _
                    (by simp [q2]) (by simp [q2]) hf hf'
                  intro p hp
                  obtain ⟨x1, x2, x3, _⟩ := hpair p hp
                  exact footprintTrades_append tr more n hn p.1 p.2 x1 x3
    | _ => cases tick <;> exact hcall.elim

theorem cusumBarLoop_append (xs ys : List (CusumTick K)) : ∀ (i : Nat) (p q : K),
    cusumBarLoop i p q xs <+: cusumBarLoop i p q (xs ++ ys) := by
  induction xs with
  | nil => intro i p q; simp [cusumBarLoop]
  | cons t l ih =>
    intro i p q
    simp only [List.cons_append, cusumBarLoop]
    split_ifs
    · exact ih _ _ _
    · rw [List.cons_prefix_cons]; exact ⟨rfl, ih _ _ _⟩
    · rw [List.cons_prefix_cons]; exact ⟨rfl, ih _ _ _⟩
    · exact ih _ _ _

theorem firstNonNan_append (l m : List (Option K)) (h : ∃ s ∈ l, s ≠ none) :
    firstNonNan (l ++ m) = firstNonNan l := by
  have hi : l.findIdx (fun s => s.isSome) < l.length := by
    rw [List.findIdx_lt_length]
    obtain ⟨s, hs, hn⟩ := h
    exact ⟨s, hs, by cases s <;> simp_all⟩
  unfold firstNonNan
  have : (l ++ m).findIdx (fun s => s.isSome) = l.findIdx (fun s => s.isSome) := by
    rw [List.findIdx_append, if_pos hi]
  simp only [this, hi, if_true]
  rw [if_pos (by rw [List.length_append]; omega)]

theorem cusumIdx_prefix (log : K → K) (ts mts : List Int) (prices mp : List K) (sigma x : List (Option K)) (f m : K)
    (h1 : sigma.length = prices.length) (h2 : ts.length = prices.length) (h3 : x.length = mp.length)
    (hs : ∃ s ∈ sigma, s ≠ none) (hl : ∀ t ∈ mts.head?, ts.getLast? ≠ some t) (h4 : mts.length = mp.length)
    (idx idx' : List Nat) (hi : cusumBarIndexer log ts prices sigma f m = .ok idx)
    (hi' : cusumBarIndexer log (ts ++ mts) (prices ++ mp) (sigma ++ x) f m = .ok idx') : idx <+: idx' := by
  unfold cusumBarIndexer at hi hi'
  rw [if_neg (by omega)] at hi
  rw [if_neg (by simp; omega)] at hi'
  simp only [Except.ok.injEq] at hi hi'
  rw [firstNonNan_append sigma x hs] at hi'
  have hF : firstNonNan sigma < sigma.length := by
    have hi : sigma.findIdx (fun s => s.isSome) < sigma.length := by
      rw [List.findIdx_lt_length]
      obtain ⟨s, hs, hn⟩ := hs
      exact ⟨s, hs, by cases s <;> simp_all⟩
    unfold firstNonNan
    simp only [hi, if_true]
  obtain ⟨F, hFe⟩ : ∃ F, F = firstNonNan sigma := ⟨_, rfl⟩
  rw [← hFe] at hi hi' hF
  rw [← hi, ← hi', List.cons_prefix_cons]
  refine ⟨rfl, ?_⟩
  have hr : List.range' (F + 1) ((prices ++ mp).length - (F + 1)) =
      List.range' (F + 1) (prices.length - (F + 1)) ++ List.range' prices.length mp.length := by
    have := List.range'_append_1 (s := F + 1) (m := prices.length - (F + 1)) (n := mp.length)
    rw [show F + 1 + (prices.length - (F + 1)) = prices.length by omega] at this
    rw [this]
    congr 1
    simp; omega
  rw [hr, List.map_append]
  have hmap : (List.range' (F + 1) (prices.length - (F + 1))).map
        (cusumTickAt log (ts ++ mts) (prices ++ mp) (forwardFill none (sigma ++ x)) f m) =
      (List.range' (F + 1) (prices.length - (F + 1))).map (cusumTickAt log ts prices (forwardFill none sigma) f m) := by
    apply List.map_congr_left
    intro j hj
    rw [List.mem_range'_1] at hj
    have hjn : j < prices.length := by omega
    have e1 : (prices ++ mp).getD j 0 = prices.getD j 0 := by
      rw [List.getD_append _ _ _ _ hjn]
    have e2 : (prices ++ mp).getD (j - 1) 0 = prices.getD (j - 1) 0 := by
      rw [List.getD_append _ _ _ _ (by omega)]
    have e3 : (forwardFill none (sigma ++ x)).getD j none = (forwardFill none sigma).getD j none := by
      rw [forwardFill_append, List.getD_append _ _ _ _ (by rw [forwardFill_len]; omega)]
    have e4 : (ts ++ mts).getD j 0 = ts.getD j 0 := by
      rw [List.getD_append _ _ _ _ (by omega)]
    have e5 : (decide (j + 1 < (prices ++ mp).length) && decide (ts.getD j 0 = (ts ++ mts).getD (j + 1) 0)) =
        (decide (j + 1 < prices.length) && decide (ts.getD j 0 = ts.getD (j + 1) 0)) := by
      by_cases hj1 : j + 1 < prices.length
      · rw [List.getD_append _ _ _ _ (by omega)]
        have : j + 1 < (prices ++ mp).length := by simp; omega
        rw [decide_eq_true hj1, decide_eq_true this]
      · have hje : j + 1 = ts.length := by omega
        rw [decide_eq_false hj1, Bool.false_and]
        cases mts with
        | nil =>
          have hmp : mp = [] := by
            rw [List.length_nil] at h4
            exact List.eq_nil_of_length_eq_zero h4.symm
          subst hmp
          simp [hj1]
        | cons t mts =>
          have := hl t (by simp)
          rw [hje]
          have hg : (ts ++ t :: mts).getD ts.length 0 = t := by
            simp [List.getD_eq_getElem?_getD]
          rw [hg]
          have hgl : ts.getLast? = some (ts.getD j 0) := by
            rw [List.getLast?_eq_getElem?, List.getD_eq_getElem?_getD, show ts.length - 1 = j by omega,
              List.getElem?_eq_getElem (by omega)]
            rfl
          rw [hgl] at this
          simp only [ne_eq, Option.some.injEq] at this
          rw [decide_eq_false this, Bool.and_false]
    simp only [cusumTickAt, e1, e2, e3, e4, e5]
  rw [hmap]
  exact cusumBarLoop_append _ _ _ _ _

theorem thresholdIdx_prefix (tr more : KitTrades K) (n : Nat) (h0 : 0 < n) (hn : tr.HasLength n) :
    (∀ T, tickBarIndexer tr.ts T <+: tickBarIndexer (tr.ts ++ more.ts) T) ∧
    (∀ T, volumeBarIndexer tr.amounts T <+: volumeBarIndexer (tr.amounts ++ more.amounts) T) ∧
    (∀ T, dollarBarIndexer (tr.prices.zip tr.amounts) T <+:
      dollarBarIndexer ((tr.prices ++ more.prices).zip (tr.amounts ++ more.amounts)) T) := by
  refine ⟨fun T => ?_, fun T => ?_, fun T => ?_⟩
  · obtain ⟨a, l, hal⟩ := List.exists_cons_of_length_pos (by rw [hn.ts]; exact h0 : 0 < tr.ts.length)
    rw [hal]
    unfold tickBarIndexer
    obtain ⟨q, hq⟩ := tickLoop_append T l more.ts 1 1
    simp only [List.cons_append, List.tail_cons, hq]
    exact List.prefix_append (0 :: _) _
  · obtain ⟨a, l, hal⟩ := List.exists_cons_of_length_pos (by rw [hn.amounts]; exact h0 : 0 < tr.amounts.length)
    rw [hal]
    unfold volumeBarIndexer
    obtain ⟨q, hq⟩ := volumeLoop_append T l more.amounts 1 a
    simp only [List.cons_append, List.tail_cons, List.headD_cons, hq]
    exact List.prefix_append (0 :: _) _
  · rw [List.zip_append (by rw [hn.prices, hn.amounts])]
    obtain ⟨a, l, hal⟩ := List.exists_cons_of_length_pos
      (by simp [hn.prices, hn.amounts]; exact h0 : 0 < (tr.prices.zip tr.amounts).length)
    rw [hal]
    unfold dollarBarIndexer
    obtain ⟨q, hq⟩ := dollarLoop_append T l (more.prices.zip more.amounts) 1 (a.1 * a.2)
    simp only [List.cons_append, List.tail_cons, List.headD_cons, hq]
    exact List.prefix_append (0 :: _) _

theorem closesAt_prefix (ts mts : List Int) (idx idx' : List Nat) (h : idx <+: idx') (c c' : List Int × List Int)
    (hc : closesAt ts idx = .ok c) (hc' : closesAt (ts ++ mts) idx' = .ok c') :
    c.1 <+: c'.1 ∧ c.2 <+: c'.2 ∧ ∀ x ∈ c.2, 0 ≤ x := by
  obtain ⟨r, rfl⟩ := h
  have key : ∀ (idx r : List Nat) (a a' : List Int), takeAt ts idx = .ok a → takeAt (ts ++ mts) (idx ++ r) = .ok a' →
      a <+: a' := by
    intro idx r
    induction idx with
    | nil => intro a a' h _; simp only [takeAt, Except.ok.injEq] at h; rw [← h]; exact List.nil_prefix
    | cons i l ih =>
      intro a a' h h'
      simp only [takeAt, List.cons_append] at h h'
      cases ht : ts[i]? with
      | none => rw [ht] at h; simp at h
      | some t =>
        have hi : i < ts.length := (List.getElem?_eq_some_iff.mp ht).1
        rw [ht] at h
        rw [List.getElem?_append_left hi, ht] at h'
        simp only at h h'
        cases hr : takeAt ts l with
        | error e => rw [hr] at h; simp at h
        | ok b =>
          cases hr' : takeAt (ts ++ mts) (l ++ r) with
          | error e => rw [hr'] at h'; simp at h'
          | ok b' =>
            rw [hr] at h
            rw [hr'] at h'
            simp only [Except.ok.injEq] at h h'
            rw [← h, ← h', List.cons_prefix_cons]
            exact ⟨rfl, ih b b' hr hr'⟩
  unfold closesAt at hc hc'
  cases ha : takeAt ts idx with
  | error e => rw [ha] at hc; simp at hc
  | ok a =>
    cases ha' : takeAt (ts ++ mts) (idx ++ r) with
    | error e => rw [ha'] at hc'; simp at hc'
    | ok a' =>
      rw [ha] at hc
      rw [ha'] at hc'
      simp only [Except.ok.injEq] at hc hc'
      rw [← hc, ← hc']
      refine ⟨key _ _ _ _ ha ha', by simp, ?_⟩
      intro x hx
      simp only [List.mem_map] at hx
      obtain ⟨k, _, rfl⟩ := hx
      omega

theorem compBarClose_prefix (log : K → K) (tr more : KitTrades K) (n m : Nat) (h0 : 0 < n) (hn : tr.HasLength n)
    (hm : more.HasLength m) (kind kind' : KitKind K) (hk : kind.Extends tr more kind') :
    ∃ c c', compBarClose log tr kind = .ok c ∧ compBarClose log (tr.append more) kind' = .ok c' ∧
      c.1 <+: c'.1 ∧ c.2 <+: c'.2 ∧ c.1.length = c.2.length ∧ c.2.Pairwise (· ≤ ·) ∧ (∀ x ∈ c.2, 0 ≤ x) ∧
      ∀ x ∈ c.2, x < n := by
  have hext : kind.Extends tr more kind' := hk
  have hw : kind.WellFormed n ∧ kind'.WellFormed (n + m) ∧ kind.closesAtTrades := by
    cases kind <;> cases kind' <;> simp only [KitKind.Extends] at hk <;>
      try exact ⟨trivial, trivial, trivial⟩
    obtain ⟨_, _, q1, ⟨s, hs, hs'⟩, ⟨x, q2, q3⟩, _⟩ := hk
    refine ⟨⟨by rw [q1, hn.ts], s, hs, hs'⟩, ⟨by rw [q3, List.length_append, q1, q2, hn.ts, hm.ts], s, ?_, hs'⟩, trivial⟩
    rw [q3]; simp [hs]
  obtain ⟨c, hc, g1, g2, g3⟩ := C74_closes log tr kind n h0 hn.ts hn.prices hn.amounts hw.1
  obtain ⟨c', hc', g1', g2', g3'⟩ := C74_closes log (tr.append more) kind' (n + m) (by omega)
    (by simp [KitTrades.append, hn.ts, hm.ts]) (by simp [KitTrades.append, hn.prices, hm.prices])
    (by simp [KitTrades.append, hn.amounts, hm.amounts]) hw.2.1
  have hpre : c.1 <+: c'.1 ∧ c.2 <+: c'.2 ∧ ∀ x ∈ c.2, 0 ≤ x := by
    obtain ⟨t1, t2, t3⟩ := thresholdIdx_prefix tr more n h0 hn
    cases kind <;> cases kind' <;> simp only [KitKind.Extends] at hk
    · subst hk; exact closesAt_prefix _ _ _ _ (t1 _) _ _ hc hc'
    · subst hk; exact closesAt_prefix _ _ _ _ (t2 _) _ _ hc hc'
    · subst hk; exact closesAt_prefix _ _ _ _ (t3 _) _ _ hc hc'
    · obtain ⟨rfl, rfl, q1, q2, ⟨x, q3, rfl⟩, q4⟩ := hk
      simp only [compBarClose] at hc hc'
      rename_i sigma f mlt
      cases hi : cusumBarIndexer log tr.ts tr.prices sigma f mlt with
      | error e => rw [hi] at hc; simp at hc
      | ok idx =>
        cases hi' : cusumBarIndexer log (tr.append more).ts (tr.append more).prices (sigma ++ x) f mlt with
        | error e => rw [hi'] at hc'; simp at hc'
        | ok idx' =>
          rw [hi] at hc
          rw [hi'] at hc'
          refine closesAt_prefix _ _ _ _ ?_ _ _ hc hc'
          exact cusumIdx_prefix log tr.ts more.ts tr.prices more.prices sigma x f mlt (by rw [q1, hn.ts, hn.prices])
            (by rw [hn.ts, hn.prices]) (by rw [q3, hm.ts, hm.prices]) q2 q4 (by rw [hm.ts, hm.prices]) idx idx' hi hi'
  refine ⟨c, c', hc, hc', hpre.1, hpre.2.1, g1, ?_, hpre.2.2, ?_⟩
  · by_cases h2 : 2 ≤ c.2.length
    · exact (g2 h2).mono
    · match hq : c.2, h2 with
      | [], _ => exact List.Pairwise.nil
      | [_], _ => exact List.pairwise_singleton _ _
      | _ :: _ :: _, h2 => simp at h2
  · intro x hx
    obtain ⟨k, hk1, rfl⟩ := List.getElem_of_mem hx
    have hx0 := hpre.2.2 _ hx
    have := g3 hw.2.2 k _ (List.getElem?_eq_getElem hk1)
    rw [List.getElem?_eq_getElem (by rw [g1]; exact hk1)] at this
    have := (List.getElem?_eq_some_iff.mp this.symm).1
    rw [hn.ts] at this
    omega

/-- **C117 (no repainting).** Appending trades to the data of a tick, volume, dollar or CUSUM bar builder only appends rows:
whatever calls were made on the two builders before, if a call returns a result on the data, and the same call (typical
trade sizes extended, tick size given) returns a result on the longer data, the first result is the beginning of the second
— close indices and timestamps, OHLCV, directional features, trade-size features and footprints. -/
theorem C117_append (log log1p : K → K) (rndOf : K → K → Int) (inferTick : List K → Except String K)
    (tr more : KitTrades K) (n m : Nat) (h0 : 0 < n) (hn : tr.HasLength n) (hm : more.HasLength m)
    (kind kind' : KitKind K) (hk : kind.Extends tr more kind') (before before' : List (KitCall K))
    (call call' : KitCall K) (hcall : call.Extends call') (o o' : KitOut K)
    (ho : (kitCall log log1p rndOf inferTick tr kind (kitAfter log log1p rndOf inferTick tr kind before) call).2 = .ok o)
    (ho' : (kitCall log log1p rndOf inferTick (tr.append more) kind'
      (kitAfter log log1p rndOf inferTick (tr.append more) kind' before') call').2 = .ok o') : o.StartOf o' := by
  rw [(kitCall_spec log log1p rndOf inferTick _ _ _ (kitAfter_ok log log1p rndOf inferTick _ _ _) _).1] at ho ho'
  obtain ⟨c, c', hc, hc', q1, q2, q3, q4, q5, q6⟩ := compBarClose_prefix log tr more n m h0 hn hm kind kind' hk
  exact pureCall_startOf log log1p rndOf inferTick tr more n hn kind kind' c c' hc hc' q1 q2 q3 q4 q5 q6 call call' hcall
    o o' ho ho'

example :
    let tr : KitTrades ℚ := ⟨[0, 1, 2, 3, 4, 5], [10, 11, 10, 12, 11, 11], [1, 2, 1, 1, 3, 1], [1, -1, 1, -1, 1, 1]⟩
    let more : KitTrades ℚ := ⟨[6, 7, 8], [10, 11, 10], [1, 2, 1], [1, -1, 1]⟩
    tr.HasLength 6 ∧ more.HasLength 3 ∧ (KitKind.tick 3).Extends tr more (.tick 3) ∧ (KitCall.ohlcv (K := ℚ)).Extends .ohlcv ∧
    (kitCall (fun x => x) (fun x => x) (fun _ _ => 0) (fun _ => .ok 1) tr (.tick 3) BuilderState.fresh .ohlcv).2.isOk = true ∧
    (kitCall (fun x => x) (fun x => x) (fun _ _ => 0) (fun _ => .ok 1) (tr.append more) (.tick 3) BuilderState.fresh .ohlcv).2.isOk = true := by
  intro tr more
  exact ⟨⟨rfl, rfl, rfl, rfl⟩, ⟨rfl, rfl, rfl, rfl⟩, rfl, trivial, by decide +kernel, by decide +kernel⟩

/-- **C117 (success).** If the data give bar closes, an OHLCV table or directional features, so do the longer data. -/
theorem C117_succeeds (log log1p : K → K) (rndOf : K → K → Int) (inferTick : List K → Except String K)
    (tr more : KitTrades K) (n m : Nat) (h0 : 0 < n) (hn : tr.HasLength n) (hm : more.HasLength m)
    (kind kind' : KitKind K) (hk : kind.Extends tr more kind') (call : KitCall K)
    (hcall : call = .closeIndices ∨ call = .closeTimestamps ∨ call = .ohlcv ∨ call = .directional) (o : KitOut K)
    (ho : (kitCall log log1p rndOf inferTick tr kind BuilderState.fresh call).2 = .ok o) :
    ∃ o', (kitCall log log1p rndOf inferTick (tr.append more) kind' BuilderState.fresh call).2 = .ok o' ∧
      o.StartOf o' := by
  have hex : ∃ o', (kitCall log log1p rndOf inferTick (tr.append more) kind' BuilderState.fresh call).2 = .ok o' := by
    rw [(kitCall_spec log log1p rndOf inferTick _ _ _ (builderCacheOk_fresh log _ _) _).1] at ho ⊢
    obtain ⟨c, c', hc, hc', q1, q2, q3, q4, q5, q6⟩ := compBarClose_prefix log tr more n m h0 hn hm kind kind' hk
    unfold pureCall at ho ⊢
    rw [hc] at ho
    rw [hc']
    rcases hcall with rfl | rfl | rfl | rfl
    · exact ⟨_, rfl⟩
    · exact ⟨_, rfl⟩
    · simp only at ho ⊢
      have hl : c.2.length ≤ c'.2.length := q2.length_le
      by_cases h2 : c.2.length < 2
      · exfalso
        rw [compBarOhlcv, if_neg (by rw [hn.prices, hn.amounts]; simp), if_pos h2] at ho
        simp at ho
      · rw [compBarOhlcv, if_neg (by simp [KitTrades.append, hn.prices, hn.amounts, hm.prices, hm.amounts]),
          if_neg (by omega)]
        exact ⟨_, rfl⟩
    · exact ⟨_, rfl⟩
  obtain ⟨o', ho'⟩ := hex
  refine ⟨o', ho', C117_append log log1p rndOf inferTick tr more n m h0 hn hm kind kind' hk [] [] call call ?_ o o' ho ho'⟩
  rcases hcall with rfl | rfl | rfl | rfl <;> trivial

example :
    let tr : KitTrades ℚ := ⟨[0, 1, 2, 3, 4, 5], [10, 11, 10, 12, 11, 11], [1, 2, 1, 1, 3, 1], [1, -1, 1, -1, 1, 1]⟩
    let more : KitTrades ℚ := ⟨[6, 7, 8], [10, 11, 10], [1, 2, 1], [1, -1, 1]⟩
    tr.HasLength 6 ∧ more.HasLength 3 ∧ (KitKind.volume 3).Extends tr more (.volume 3) ∧
    (kitCall (fun x => x) (fun x => x) (fun _ _ => 0) (fun _ => .ok 1) tr (.volume 3) BuilderState.fresh .directional).2.isOk = true := by
  intro tr more
  exact ⟨⟨rfl, rfl, rfl, rfl⟩, ⟨rfl, rfl, rfl, rfl⟩, rfl, by decide +kernel⟩

/-- **C117 (features).** Feature columns computed from the OHLCV table by a kit whose features look only backwards are not
repainted either: on the longer data every column (a function of the table row, or a column the kit adds) begins with the
values it had. -/
theorem C117_features {α : Type} (log log1p : K → K) (rndOf : K → K → Int) (inferTick : List K → Except String K)
    (tr more : KitTrades K) (n m : Nat) (h0 : 0 < n) (hn : tr.HasLength n) (hm : more.HasLength m)
    (kind kind' : KitKind K) (hk : kind.Extends tr more kind') (T T' : List (Int × Ohlcv K))
    (hT : (kitCall log log1p rndOf inferTick tr kind BuilderState.fresh .ohlcv).2 = .ok (.bars T))
    (hT' : (kitCall log log1p rndOf inferTick (tr.append more) kind' BuilderState.fresh .ohlcv).2 = .ok (.bars T'))
    (cols : String → Option (Int × Ohlcv K → α)) (retain : List String) (feats : List (Feat (List α)))
    (hf : ∀ f ∈ feats, f.Commutes (List.take T.length)) :
    buildKit (fun name => (cols name).map (fun g => T.map g)) retain feats =
      (buildKit (fun name => (cols name).map (fun g => T'.map g)) retain feats).map
        (fun out name => (out name).map (List.take T.length)) := by
  have hp : T <+: T' := C117_append log log1p rndOf inferTick tr more n m h0 hn hm kind kind' hk [] [] .ohlcv .ohlcv
    trivial (.bars T) (.bars T') hT hT'
  rw [← C93_causal T.length _ retain feats hf]
  congr 1
  funext name
  obtain ⟨r, rfl⟩ := hp
  cases cols name with
  | none => rfl
  | some g => simp

example (n : Nat) : ∀ f ∈ [(.multi "a" ["close"] ["b"] (fun cs => .ok cs) : Feat (List ℚ))], f.Commutes (List.take n) := by
  intro f hf
  rw [List.mem_singleton] at hf
  subst hf
  intro cs
  rfl

theorem searchRight_append_lt (ts more : List Int) (v t0 : Int) (h : more.head? = some t0) (hv : v < t0) :
    searchRight (ts ++ more) v = searchRight ts v := by
  unfold searchRight
  induction ts with
  | nil =>
    cases more with
    | nil => rfl
    | cons a l =>
      simp only [List.head?_cons, Option.some.injEq] at h
      subst h
      simp [not_le.mpr hv]
  | cons a l ih =>
    simp only [List.cons_append, List.takeWhile_cons]
    split_ifs
    · simp [ih]
    · rfl

theorem timeBarClock_prefix (ts more : List Int) (I : Int) (hI : 0 < I) (hne : ts ≠ [])
    (hs : (ts ++ more).Pairwise (· ≤ ·)) : timeBarClock ts I <+: timeBarClock (ts ++ more) I := by
  have hhead : (ts ++ more).headD 0 = ts.headD 0 := by
    cases ts with
    | nil => exact absurd rfl hne
    | cons a l => rfl
  have hlast : ts.getLastD 0 ≤ (ts ++ more).getLastD 0 := by
    rcases List.eq_nil_or_concat more with rfl | ⟨m, t, rfl⟩
    · simp
    · rw [List.pairwise_append] at hs
      have h1 : ts.getLastD 0 = ts.getLast hne := by
        rw [List.getLastD_eq_getLast?, List.getLast?_eq_some_getLast hne]; rfl
      have h2 : (ts ++ m.concat t).getLastD 0 = t := by
        rw [List.getLastD_eq_getLast?]
        simp
      rw [h1, h2]
      exact hs.2.2 _ (List.getLast_mem hne) t (by simp)
  unfold timeBarClock arange
  simp only [hhead]
  have hc : ceilDiv (ts.getLastD 0) I * I ≤ ceilDiv ((ts ++ more).getLastD 0) I * I := by
    apply mul_le_mul_of_nonneg_right _ hI.le
    unfold ceilDiv
    have := Int.ediv_le_ediv hI (show -((ts ++ more).getLastD 0) ≤ -(ts.getLastD 0) by omega)
    omega
  have hlen : ((ceilDiv (ts.getLastD 0) I * I + I + 1 - ts.headD 0 / I * I + I - 1) / I).toNat ≤
      ((ceilDiv ((ts ++ more).getLastD 0) I * I + I + 1 - ts.headD 0 / I * I + I - 1) / I).toNat := by
    apply Int.toNat_le_toNat
    apply Int.ediv_le_ediv hI
    omega
  obtain ⟨d, hd⟩ := Nat.exists_eq_add_of_le hlen
  rw [hd, List.range_add, List.map_append]
  exact List.prefix_append _ _

/-- The pairs of closes of the time bars stamped before the first new trade. -/
theorem time_key (log : K → K) (tr more : KitTrades K) (n : Nat) (hn : tr.HasLength n) (m : Nat) (hm : more.HasLength m) (I : Int)
    (hI : 0 < I) (h0 : 0 < n) (t0 : Int) (ht0 : more.ts.head? = some t0) (hs : (tr.ts ++ more.ts).Pairwise (· ≤ ·)) :
    ∃ (c c' : List Int × List Int) (e : List Int), compBarClose log tr (.time I) = .ok c ∧
      compBarClose log (tr.append more) (.time I) = .ok c' ∧ c.1.length = c.2.length ∧ c'.1.length = c'.2.length ∧
      2 ≤ c.2.length ∧ 2 ≤ c'.2.length ∧ c'.1 = c.1 ++ e ∧
      ∀ k, k + 1 < c.1.length → ∀ s, c.1[k + 1]? = some s → s < t0 → ∃ a b, (closePairs c.2)[k]? = some (a, b) ∧
        (closePairs c'.2)[k]? = some (a, b) ∧ -1 ≤ a ∧ a ≤ b ∧ 0 ≤ b ∧ b < n := by
  have hne : tr.ts ≠ [] := by
    intro h
    have := hn.ts
    rw [h] at this
    simp at this
    omega
  obtain ⟨e, he⟩ := timeBarClock_prefix tr.ts more.ts I hI hne hs
  have hs1 : tr.ts.Pairwise (· ≤ ·) := (List.pairwise_append.mp hs).1
  have hcl := timeBarClock_length_pos tr.ts I hI hne hs1
  obtain ⟨c, hc, hlen, hval, _⟩ := C74_closes log tr (.time I) n h0 hn.ts hn.prices hn.amounts hI
  obtain ⟨c', hc', hlen', hval', _⟩ := C74_closes log (tr.append more) (.time I) (n + m) (by omega)
    (by simp [KitTrades.append, hn.ts, hm.ts]) (by simp [KitTrades.append, hn.prices, hm.prices])
    (by simp [KitTrades.append, hn.amounts, hm.amounts]) hI
  have hc1 : c.1 = timeBarClock tr.ts I := by simp only [compBarClose] at hc; cases hc; rfl
  have hc2 : c.2 = c.1.map (fun x => (searchRight tr.ts x : Int) - 1) := by
    simp only [compBarClose] at hc; cases hc; rfl
  have hc1' : c'.1 = c.1 ++ e := by
    rw [hc1, he]
    simp only [compBarClose] at hc'; cases hc'; rfl
  have hc2' : c'.2 = c'.1.map (fun x => (searchRight (tr.ts ++ more.ts) x : Int) - 1) := by
    simp only [compBarClose] at hc'; cases hc'; rfl
  have hC := C01_timeBars_clock tr.ts I hI hne hs1
  simp only at hC
  obtain ⟨_, hstep, hfirst, _, _⟩ := hC
  have hfst : (timeBarIndexer tr.ts I).1 = c.1 := by rw [hc1]; rfl
  simp only [hfst] at hstep
  have hl2 : 2 ≤ c.2.length := by rw [← hlen, hc1]; omega
  have hl2' : 2 ≤ c'.2.length := by rw [← hlen', hc1', List.length_append]; omega
  have hvc := hval hl2
  have key : ∀ k, k + 1 < c.1.length → ∀ s, c.1[k + 1]? = some s → s < t0 → ∃ a b, (closePairs c.2)[k]? = some (a, b) ∧
      (closePairs c'.2)[k]? = some (a, b) ∧ -1 ≤ a ∧ a ≤ b ∧ 0 ≤ b ∧ b < n := by
    intro k hk s hks hst
    have hs1' : c.1[k + 1] = s := by
      rw [List.getElem?_eq_getElem hk, Option.some.injEq] at hks; exact hks
    have hs0 := hstep k hk
    have g0 : c'.1[k]? = some c.1[k] := by
      rw [hc1', List.getElem?_append_left (by omega), List.getElem?_eq_getElem (by omega)]
    have g1 : c'.1[k + 1]? = some c.1[k + 1] := by
      rw [hc1', List.getElem?_append_left (by omega), List.getElem?_eq_getElem (by omega)]
    have e0 : c.2[k]? = some ((searchRight tr.ts c.1[k] : Int) - 1) := by
      rw [hc2, List.getElem?_map, List.getElem?_eq_getElem (by omega)]; rfl
    have e1 : c.2[k + 1]? = some ((searchRight tr.ts c.1[k + 1] : Int) - 1) := by
      rw [hc2, List.getElem?_map, List.getElem?_eq_getElem (by omega)]; rfl
    have e0' : c'.2[k]? = some ((searchRight tr.ts c.1[k] : Int) - 1) := by
      rw [hc2', List.getElem?_map, g0, Option.map_some,
        searchRight_append_lt tr.ts more.ts c.1[k] t0 ht0 (by omega)]
    have e1' : c'.2[k + 1]? = some ((searchRight tr.ts c.1[k + 1] : Int) - 1) := by
      rw [hc2', List.getElem?_map, g1, Option.map_some,
        searchRight_append_lt tr.ts more.ts c.1[k + 1] t0 ht0 (by omega)]
    have hpairs : ∀ (d : List Int) (a b : Int), d[k]? = some a → d[k + 1]? = some b → (closePairs d)[k]? = some (a, b) := by
      intro d a b ha hb
      unfold closePairs
      rw [List.getElem?_zip_eq_some]
      exact ⟨ha, by rw [List.getElem?_tail]; exact hb⟩
    refine ⟨_, _, hpairs _ _ _ e0 e1, hpairs _ _ _ e0' e1', ?_⟩
    obtain ⟨k0, r0⟩ := List.getElem?_eq_some_iff.mp e0
    obtain ⟨k1, r1⟩ := List.getElem?_eq_some_iff.mp e1
    have hl := hvc.lower c.2[k] (List.getElem_mem _)
    have hu := hvc.upper c.2[k + 1] (List.getElem_mem _)
    have hmn : c.2[k] ≤ c.2[k + 1] := List.pairwise_iff_getElem.mp hvc.mono k (k + 1) k0 k1 (by omega)
    rw [r0] at hl hmn
    rw [r1] at hu hmn
    refine ⟨hl, hmn, ?_, hu⟩
    have hpos : 0 < searchRight tr.ts c.1[k + 1] := by
      obtain ⟨x, l, hxl⟩ := List.exists_cons_of_length_pos (by rw [hn.ts]; exact h0 : 0 < tr.ts.length)
      have hx : x ≤ c.1[k + 1] := by
        have hck : c.1[k + 1] = x / I * I + ((k + 1 : Nat) : Int) * I := by
          simp only [hc1, timeBarClock, arange, List.getElem_map, List.getElem_range, hxl, List.headD_cons]
        rw [hck]
        have := Int.lt_ediv_add_one_mul_self x hI
        push_cast
        have hkI : 0 ≤ (k : Int) * I := by positivity
        nlinarith
      unfold searchRight
      rw [hxl, List.takeWhile_cons, if_pos (by simpa using hx)]
      simp
    omega
  exact ⟨c, c', e, hc, hc', hlen, hlen', hl2, hl2', hc1', key⟩

/-- **C117 (time bars).** Appending trades to time-ordered data leaves every time bar stamped before the first new trade
unchanged and in its place: its OHLCV row, and its directional row up to the two spreads.  (A bar stamped at or after the
first new trade may change.) -/
theorem C117_time (log log1p : K → K) (rndOf : K → K → Int) (inferTick : List K → Except String K)
    (tr more : KitTrades K) (n : Nat) (hn : tr.HasLength n) (m : Nat) (hm : more.HasLength m) (I : Int) (hI : 0 < I)
    (h0 : 0 < n) (t0 : Int) (ht0 : more.ts.head? = some t0) (hs : (tr.ts ++ more.ts).Pairwise (· ≤ ·)) :
    (∃ T T', (kitCall log log1p rndOf inferTick tr (.time I) BuilderState.fresh .ohlcv).2 = .ok (.bars T) ∧
      (kitCall log log1p rndOf inferTick (tr.append more) (.time I) BuilderState.fresh .ohlcv).2 = .ok (.bars T') ∧
      T.map Prod.fst <+: T'.map Prod.fst ∧
      ∀ (k : Nat) (row : Int × Ohlcv K), T[k]? = some row → row.1 < t0 → T'[k]? = some row) ∧
    (∃ D D', (kitCall log log1p rndOf inferTick tr (.time I) BuilderState.fresh .directional).2 = .ok (.dirs D) ∧
      (kitCall log log1p rndOf inferTick (tr.append more) (.time I) BuilderState.fresh .directional).2 = .ok (.dirs D') ∧
      ∀ (k : Nat) (row : Int × DirBar K), D[k]? = some row → row.1 < t0 →
        ∃ row', D'[k]? = some row' ∧ row'.1 = row.1 ∧ row'.2.noSpread = row.2.noSpread) := by
  obtain ⟨c, c', e, hc, hc', hlen, hlen', hl2, hl2', hc1', key⟩ := time_key log tr more n hn m hm I hI h0 t0 ht0 hs
  have hnl : ¬ tr.prices.length ≠ tr.amounts.length := by rw [hn.prices, hn.amounts]; simp
  have hnl' : ¬ (tr.append more).prices.length ≠ (tr.append more).amounts.length := by
    simp [KitTrades.append, hn.prices, hn.amounts, hm.prices, hm.amounts]
  have hB : compBarOhlcv tr.prices tr.amounts c.2 =
      .ok ((closePairs c.2).map (fun p => ohlcvBar tr.prices tr.amounts p.1 p.2)) := by
    unfold compBarOhlcv; rw [if_neg hnl, if_neg (by omega)]
  have hB' : compBarOhlcv (tr.append more).prices (tr.append more).amounts c'.2 =
      .ok ((closePairs c'.2).map (fun p => ohlcvBar (tr.append more).prices (tr.append more).amounts p.1 p.2)) := by
    unfold compBarOhlcv; rw [if_neg hnl', if_neg (by omega)]
  constructor
  · refine ⟨c.1.tail.zip ((closePairs c.2).map (fun p => ohlcvBar tr.prices tr.amounts p.1 p.2)),
      c'.1.tail.zip ((closePairs c'.2).map (fun p => ohlcvBar (tr.append more).prices (tr.append more).amounts p.1 p.2)),
      ?_, ?_, ?_, ?_⟩
    · rw [(kitCall_spec log log1p rndOf inferTick tr _ _ (builderCacheOk_fresh log tr _) _).1]
      simp only [pureCall, hc, hB]
    · rw [(kitCall_spec log log1p rndOf inferTick _ _ _ (builderCacheOk_fresh log _ _) _).1]
      simp only [pureCall, hc', hB']
    · rw [List.map_fst_zip (by simp [closePairs_length]; omega), List.map_fst_zip (by simp [closePairs_length]; omega)]
      exact tail_prefix _ _ ⟨e, hc1'.symm⟩
    · intro k row hrow hlt
      rw [List.getElem?_zip_eq_some, List.getElem?_tail] at hrow
      obtain ⟨hr1, hr2⟩ := hrow
      have hk : k + 1 < c.1.length := (List.getElem?_eq_some_iff.mp hr1).1
      obtain ⟨a, b, p1, p2, b1, b2, b3, b4⟩ := key k hk _ hr1 hlt
      rw [List.getElem?_zip_eq_some, List.getElem?_tail]
      refine ⟨by rw [hc1', List.getElem?_append_left hk]; exact hr1, ?_⟩
      rw [List.getElem?_map, p1] at hr2
      rw [List.getElem?_map, p2, ← hr2, Option.map_some, Option.map_some]
      congr 1
      exact C09_ohlcv_no_lookahead tr.prices tr.amounts more.prices more.amounts a b (by rw [hn.prices, hn.amounts]) b3 b1 b2
        (by rw [hn.prices]; exact b4)
  · refine ⟨c.1.tail.zip (compBarDirectional tr.prices tr.amounts tr.sides c.2),
      c'.1.tail.zip (compBarDirectional (tr.append more).prices (tr.append more).amounts (tr.append more).sides c'.2),
      ?_, ?_, ?_⟩
    · rw [(kitCall_spec log log1p rndOf inferTick tr _ _ (builderCacheOk_fresh log tr _) _).1]
      simp only [pureCall, hc]
    · rw [(kitCall_spec log log1p rndOf inferTick _ _ _ (builderCacheOk_fresh log _ _) _).1]
      simp only [pureCall, hc']
    · intro k row hrow hlt
      rw [List.getElem?_zip_eq_some, List.getElem?_tail] at hrow
      obtain ⟨hr1, hr2⟩ := hrow
      have hk : k + 1 < c.1.length := (List.getElem?_eq_some_iff.mp hr1).1
      obtain ⟨a, b, p1, p2, b1, b2, b3, b4⟩ := key k hk _ hr1 hlt
      unfold compBarDirectional at hr2 ⊢
      rw [List.getElem?_map, p1, Option.map_some, Option.some.injEq] at hr2
      refine ⟨(row.1, dirBar (tr.append more).prices (tr.append more).amounts (tr.append more).sides a b), ?_, rfl, ?_⟩
      · rw [List.getElem?_zip_eq_some, List.getElem?_tail]
        refine ⟨by rw [hc1', List.getElem?_append_left hk]; exact hr1, ?_⟩
        rw [List.getElem?_map, p2]; rfl
      · rw [← hr2]
        exact (C12_directional_no_lookahead_partial tr.prices tr.amounts more.prices more.amounts tr.sides more.sides a b
          (by rw [hn.prices, hn.amounts]) (by rw [hn.prices, hn.sides]) b1 b2 (by rw [hn.prices]; exact b4)).1

example :
    let tr : KitTrades ℚ := ⟨[1, 2, 12], [10, 11, 10], [1, 2, 1], [1, -1, 1]⟩
    let more : KitTrades ℚ := ⟨[13, 27], [10, 11], [1, 2], [1, -1]⟩
    tr.HasLength 3 ∧ more.HasLength 2 ∧ more.ts.head? = some 13 ∧ (tr.ts ++ more.ts).Pairwise (· ≤ ·) := by
  intro tr more
  exact ⟨⟨rfl, rfl, rfl, rfl⟩, ⟨rfl, rfl, rfl, rfl⟩, rfl, by decide⟩

/-- **C117 (time bars: trade sizes and footprints).** Time bars stamped before the first new trade also keep their trade-size
row, when the typical sizes are extended, and their footprint, when the tick size is given and levels are ordered like prices;
the tables of both data sets exist. -/
theorem C117_time_sizes_footprints (log log1p : K → K) (rndOf : K → K → Int) (inferTick : List K → Except String K)
    (tr more : KitTrades K) (n : Nat) (hn : tr.HasLength n) (m : Nat) (hm : more.HasLength m) (I : Int) (hI : 0 < I)
    (h0 : 0 < n) (t0 : Int) (ht0 : more.ts.head? = some t0) (hs : (tr.ts ++ more.ts).Pairwise (· ≤ ·))
    (before before' : List (KitCall K)) :
    (∀ (th th' : List (Option K)) (mult : K) (S S' : List (Int × SizeBar K)), th <+: th' →
      (kitCall log log1p rndOf inferTick tr (.time I) (kitAfter log log1p rndOf inferTick tr (.time I) before)
        (.tradeSize th mult)).2 = .ok (.sizes S) →
      (kitCall log log1p rndOf inferTick (tr.append more) (.time I)
        (kitAfter log log1p rndOf inferTick (tr.append more) (.time I) before') (.tradeSize th' mult)).2 = .ok (.sizes S') →
      ∀ (k : Nat) (row : Int × SizeBar K), S[k]? = some row → row.1 < t0 → S'[k]? = some row) ∧
    (∀ (t f : K), Monotone (rndOf t) → ∃ (ts ts' : List Int) (F F' : List (Footprint K)),
      (kitCall log log1p rndOf inferTick tr (.time I) (kitAfter log log1p rndOf inferTick tr (.time I) before)
        (.footprints (some t) f)).2 = .ok (.fps ts t F) ∧
      (kitCall log log1p rndOf inferTick (tr.append more) (.time I)
        (kitAfter log log1p rndOf inferTick (tr.append more) (.time I) before') (.footprints (some t) f)).2 =
          .ok (.fps ts' t F') ∧ ts.length = F.length ∧ ts <+: ts' ∧
      ∀ (k : Nat) (s : Int) (fp : Footprint K), ts[k]? = some s → F[k]? = some fp → s < t0 → F'[k]? = some fp) := by
  obtain ⟨c, c', e, hc, hc', hlen, hlen', hl2, hl2', hc1', key⟩ := time_key log tr more n hn m hm I hI h0 t0 ht0 hs
  constructor
  · intro th th' mult S S' hth hS hS' k row hrow hlt
    rw [(kitCall_spec log log1p rndOf inferTick _ _ _ (kitAfter_ok log log1p rndOf inferTick _ _ _) _).1] at hS hS'
    simp only [pureCall, hc, hc', compBarTradeSize, asTable] at hS hS'
    by_cases hl : (th.length : Int) ≠ c.2.length - 1
    · rw [if_pos hl] at hS; simp at hS
    by_cases hl' : (th'.length : Int) ≠ c'.2.length - 1
    · rw [if_pos hl'] at hS'; simp at hS'
    rw [if_neg hl] at hS
    rw [if_neg hl'] at hS'
    simp only at hS hS'
    by_cases hz : c.1.tail.length ≠ (List.zipWith (fun t c => sizeBar log1p mult t (barSlice tr.amounts c.1 c.2)) th
        (closePairs c.2)).length
    · rw [if_pos hz] at hS; simp at hS
    by_cases hz' : c'.1.tail.length ≠ (List.zipWith (fun t c => sizeBar log1p mult t
        (barSlice (tr.append more).amounts c.1 c.2)) th' (closePairs c'.2)).length
    · rw [if_pos hz'] at hS'; simp at hS'
    rw [if_neg hz] at hS
    rw [if_neg hz'] at hS'
    simp only [Except.ok.injEq, KitOut.sizes.injEq] at hS hS'
    subst hS; subst hS'
    rw [List.getElem?_zip_eq_some, List.getElem?_tail] at hrow
    obtain ⟨hr1, hr2⟩ := hrow
    have hk : k + 1 < c.1.length := (List.getElem?_eq_some_iff.mp hr1).1
    obtain ⟨a, b, p1, p2, b1, b2, b3, b4⟩ := key k hk _ hr1 hlt
    rw [List.getElem?_zip_eq_some, List.getElem?_tail]
    refine ⟨by rw [hc1', List.getElem?_append_left hk]; exact hr1, ?_⟩
    have hkt : k < th.length := by push Not at hl; omega
    obtain ⟨x, rfl⟩ := hth
    rw [List.getElem?_zipWith, p1, List.getElem?_eq_getElem hkt] at hr2
    rw [List.getElem?_zipWith, p2, List.getElem?_append_left hkt, List.getElem?_eq_getElem hkt]
    simp only at hr2 ⊢
    rw [← hr2]
    simp only [KitTrades.append]
    rw [barSlice_append tr.amounts more.amounts a b b1 b2 (by rw [hn.amounts]; exact b4)]
  · intro t f hmono
    have hlen2 : (tr.append more).ts.length = n + m := by simp [KitTrades.append, hn.ts, hm.ts]
    have hlenp : (tr.append more).prices.length = n + m := by simp [KitTrades.append, hn.prices, hm.prices]
    have hlena : (tr.append more).amounts.length = n + m := by simp [KitTrades.append, hn.amounts, hm.amounts]
    obtain ⟨d, hd, _, hval, _⟩ := C74_closes log tr (.time I) n h0 hn.ts hn.prices hn.amounts hI
    obtain ⟨d', hd', _, hval', _⟩ := C74_closes log (tr.append more) (.time I) (n + m) (by omega) hlen2 hlenp hlena hI
    obtain rfl : c = d := by rw [hc] at hd; exact Except.ok.inj hd
    obtain rfl : c' = d' := by rw [hc'] at hd'; exact Except.ok.inj hd'
    have v := hval hl2
    have v' := hval' hl2'
    have hp := closePairs_mem c.2 n v.mono v.lower v.upper
    have hp' := closePairs_mem c'.2 (n + m) v'.mono v'.lower v'.upper
    obtain ⟨F, f1, f2, f3⟩ := compBarFootprints_ok (rndOf t) hmono f tr (by rw [hn.prices, hn.amounts]) (closePairs c.2)
      (fun p h => by obtain ⟨x1, x2, x3, _⟩ := hp p h; rw [hn.prices]; exact ⟨x1, x2, x3⟩)
    obtain ⟨F', f1', f2', f3'⟩ := compBarFootprints_ok (rndOf t) hmono f (tr.append more) (by rw [hlenp, hlena]) (closePairs c'.2)
      (fun p h => by obtain ⟨x1, x2, x3, _⟩ := hp' p h; rw [hlenp]; exact ⟨x1, x2, x3⟩)
    have hB : compBarOhlcv tr.prices tr.amounts c.2 =
        .ok ((closePairs c.2).map (fun p => ohlcvBar tr.prices tr.amounts p.1 p.2)) := by
      unfold compBarOhlcv; rw [if_neg (by rw [hn.prices, hn.amounts]; simp), if_neg (by omega)]
    have hB' : compBarOhlcv (tr.append more).prices (tr.append more).amounts c'.2 =
        .ok ((closePairs c'.2).map (fun p => ohlcvBar (tr.append more).prices (tr.append more).amounts p.1 p.2)) := by
      unfold compBarOhlcv; rw [if_neg (by rw [hlenp, hlena]; simp), if_neg (by omega)]
    refine ⟨c.1.tail, c'.1.tail, F, F', ?_, ?_, ?_, tail_prefix _ _ ⟨e, hc1'.symm⟩, ?_⟩
    · rw [(kitCall_spec log log1p rndOf inferTick _ _ _ (kitAfter_ok log log1p rndOf inferTick _ _ _) _).1]
      simp only [pureCall, hc, hB, chosenTick, List.map_map, Function.comp_def, f1]
    · rw [(kitCall_spec log log1p rndOf inferTick _ _ _ (kitAfter_ok log log1p rndOf inferTick _ _ _) _).1]
      simp only [pureCall, hc', hB', chosenTick, List.map_map, Function.comp_def, f1']
    · rw [f2, closePairs_length, List.length_tail, hlen]
    · intro k s fp hts hF hlt
      rw [List.getElem?_tail] at hts
      have hk : k + 1 < c.1.length := (List.getElem?_eq_some_iff.mp hts).1
      obtain ⟨a, b, p1, p2, b1, b2, b3, b4⟩ := key k hk _ hts hlt
      obtain ⟨x, hx, hx2⟩ := f3 k _ p1
      obtain ⟨y, hy, hy2⟩ := f3' k _ p2
      rw [hx, Option.some.injEq] at hF
      subst hF
      rw [hy]
      congr 1
      have hsame := footprintTrades_append tr more n hn a b b1 b4
      have hbar := C09_ohlcv_no_lookahead tr.prices tr.amounts more.prices more.amounts a b (by rw [hn.prices, hn.amounts]) b3 b1 b2
        (by rw [hn.prices]; exact b4)
      simp only [KitTrades.append] at hy2
      rw [hsame, hbar, hx2] at hy2
      exact (Except.ok.inj hy2).symm

/- Non-vacuity of `C117_time_sizes_footprints`: a builder that rounds prices to ticks rounds monotonically. -/
example (t : ℚ) (ht : 0 < t) : Monotone (fun p : ℚ => rint (p / t)) := fun _ _ h => rint_mono (by gcongr)

/-- The close indices returned by a builder. -/
def closesOf (tr : KitTrades ℚ) (kind : KitKind ℚ) : Option (List Int) :=
  match (kitCall (fun x => x - 1) (fun x => x) (fun t p => rint (p / t)) compTickSize tr kind BuilderState.fresh
    .closeIndices).2 with
  | .ok (.ints l) => some l
  | _ => none

/-- **C117 (a bar that vanishes).** When the first new trade has the timestamp of the last earlier trade, the last CUSUM bar of
the earlier data can disappear: it closed at the last trade only because nothing followed. -/
theorem C117_cusum_vanishes :
    ∃ (tr more : KitTrades ℚ) (sigma x : List (Option ℚ)),
      closesOf tr (.cusum sigma 0 1) = some [1, 2] ∧
      closesOf (tr.append more) (.cusum (sigma ++ x) 0 1) = some [1] := by
  refine ⟨⟨[0, 1, 2], [10, 20, 40], [1, 1, 1], [1, 1, 1]⟩, ⟨[2], [1], [1], [1]⟩, [some 1, some 1, some 1],
    [some 10], by decide +kernel, by decide +kernel⟩

/-- **C117 (open bars).** The last time bars of the data are provisional: here the only trade falls in a bar stamped after
the first new trade, and that bar's volume changes. -/
theorem C117_time_open_bar :
    ∃ (tr more : KitTrades ℚ), (tr.append more).ts.Pairwise (· ≤ ·) ∧
      (buildOhlcv (fun x => x) tr (.time 5) BuilderState.fresh).2.toOption.map (·.map (fun r => (r.1, r.2.volume))) =
        some [(5, 1), (10, 0)] ∧
      (buildOhlcv (fun x => x) (tr.append more) (.time 5) BuilderState.fresh).2.toOption.map
        (·.map (fun r => (r.1, r.2.volume))) = some [(5, 3), (10, 0)] := by
  refine ⟨⟨[1], [10], [1], [1]⟩, ⟨[2], [10], [2], [1]⟩, by decide +kernel, by decide +kernel, by decide +kernel⟩

/-- The price levels (in ticks) of the footprints of a builder that infers the tick size. -/
def inferredLevels (tr : KitTrades ℚ) (kind : KitKind ℚ) : Option (ℚ × List (List Int)) :=
  match (kitCall (fun x => x) (fun x => x) (fun t p => rint (p / t)) compTickSize tr kind BuilderState.fresh
    (.footprints none 3)).2 with
  | .ok (.fps _ t l) => some (t, l.map (·.priceLevels))
  | _ => none

/-- **C117 (inferred tick size).** When the tick size is inferred from the prices, later trades repaint every footprint: one
trade off the earlier grid changes the tick size and with it the price levels of all earlier bars. -/
theorem C117_inferred_tick_repaints :
    ∃ (tr more : KitTrades ℚ), inferredLevels tr (.tick 2) = some (1, [[11], [10, 11]]) ∧
      inferredLevels (tr.append more) (.tick 2) = some (1/2, [[22], [20, 21, 22]]) := by
  refine ⟨⟨[0, 1, 2, 3], [10, 11, 10, 11], [1, 1, 1, 1], [1, 1, -1, 1]⟩, ⟨[4], [21/2], [1], [1]⟩, by decide +kernel,
    by decide +kernel⟩

/- Non-vacuity of `C117_append`: volume bars of five trades, then of seven. -/
example :
    let tr : KitTrades ℚ := ⟨[0, 1, 2, 3, 4], [10, 11, 10, 11, 12], [1, 1, 1, 1, 1], [1, 1, -1, 1, 1]⟩
    let more : KitTrades ℚ := ⟨[5, 6], [10, 11], [1, 1], [1, 1]⟩
    tr.HasLength 5 ∧ more.HasLength 2 ∧ (KitKind.volume (2 : ℚ)).Extends tr more (.volume 2) ∧
      closesOf tr (.volume 2) = some [1, 3] ∧ closesOf (tr.append more) (.volume 2) = some [1, 3, 5] :=
  ⟨⟨rfl, rfl, rfl, rfl⟩, ⟨rfl, rfl, rfl, rfl⟩, rfl, by decide +kernel, by decide +kernel⟩

/- Non-vacuity of the hypotheses on CUSUM bars. -/
example :
    let tr : KitTrades ℚ := ⟨[0, 1, 2], [10, 20, 40], [1, 1, 1], [1, 1, 1]⟩
    let more : KitTrades ℚ := ⟨[3], [1], [1], [1]⟩
    (KitKind.cusum [some 1, some 1, some 1] (0 : ℚ) 1).Extends tr more (.cusum [some 1, some 1, some 1, none] 0 1) ∧
      closesOf (tr.append more) (.cusum [some 1, some 1, some 1, none] 0 1) = some [1, 2] := by
  refine ⟨⟨rfl, rfl, rfl, ⟨some 1, by simp, by simp⟩, ⟨[none], rfl, rfl⟩, by decide⟩, by decide +kernel⟩

/- Non-vacuity of `C117_features`: a kit that passes a column on looks only backwards. -/
example (k : Nat) : (Feat.single "x" (Tr.leaf (passCol "x"))).Commutes (List.take k) := passCol_commutes "x" k

/- Non-vacuity of `C117_time`: with a later trade at 12, the bar stamped 5 stays. -/
example : (buildOhlcv (fun x => x) (KitTrades.append ⟨[1], [10], [1], [1]⟩ ⟨[12], [10], [2], [1]⟩ : KitTrades ℚ) (.time 5)
    BuilderState.fresh).2.toOption.map (·.map (fun r => (r.1, r.2.volume))) =
      some [(5, 1), (10, 0), (15, 2), (20, 0)] := by decide +kernel

end FinML

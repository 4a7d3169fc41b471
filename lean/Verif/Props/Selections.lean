/-
C164 (stricter selections).  `finmlkit/bar/base.py:comp_footprint_features`, `finmlkit/feature/core/volume.py:comp_poc_hva_lva`,
`finmlkit/label/kit.py:TBMLabel`, `finmlkit/label/tbm.py:triple_barrier`.
-/
import Verif.Props.Footprint
import Verif.Props.ValueArea
import Verif.Props.TbmLabel
import Verif.Props.BarrierOrder

set_option linter.unusedSectionVars false

namespace FinML

variable {K : Type} [Field K] [LinearOrder K] [IsStrictOrderedRing K]

/-! ## Imbalance flags -/

/-- **C164 (imbalance flags).** With a larger multiplier and volumes that are not negative, only levels flagged before are flagged. -/
theorem C164_flags (levels : List Int) (buy sell : List K) (m m' : K) (hm : m ≤ m') (hl : buy.length = sell.length)
    (hb : ∀ x ∈ buy, 0 ≤ x) (hs : ∀ x ∈ sell, 0 ≤ x) (l : Nat) :
    ((footprintFeatures levels buy sell m').buyImb[l]? = some true → (footprintFeatures levels buy sell m).buyImb[l]? = some true) ∧
    ((footprintFeatures levels buy sell m').sellImb[l]? = some true → (footprintFeatures levels buy sell m).sellImb[l]? = some true) := by
  by_cases h : l < buy.length
  · obtain ⟨-, -, a1, a2⟩ := C14_imbalance_flags levels buy sell m hl l h
    obtain ⟨-, -, b1, b2⟩ := C14_imbalance_flags levels buy sell m' hl l h
    constructor
    · intro hf
      obtain ⟨h0, h1⟩ := b1.mp hf
      exact a1.mpr ⟨h0, lt_of_le_of_lt (mul_le_mul_of_nonneg_left hm (hs _ (List.getElem_mem _))) h1⟩
    · intro hf
      obtain ⟨h0, h1⟩ := b2.mp hf
      exact a2.mpr ⟨h0, lt_of_le_of_lt (mul_le_mul_of_nonneg_left hm (hb _ (List.getElem_mem _))) h1⟩
  · have hlen : ∀ k : K, (footprintFeatures levels buy sell k).buyImb.length = buy.length ∧
        (footprintFeatures levels buy sell k).sellImb.length = buy.length := by
      intro k
      cases hbb : buy with
      | nil => simp [footprintFeatures, buyImbalances, sellImbalances]
      | cons x xs =>
        have := C14_imbalance_flags levels buy sell k hl 0 (by rw [hbb]; simp)
        rw [← hbb]; exact ⟨this.1, this.2.1⟩
    constructor
    · intro hf
      rw [List.getElem?_eq_none (by rw [(hlen m').1]; omega)] at hf; cases hf
    · intro hf
      rw [List.getElem?_eq_none (by rw [(hlen m').2]; omega)] at hf; cases hf

example : (footprintFeatures [10, 11, 12] ([5, 9, 9] : List ℚ) [2, 1, 4] 3).buyImb = [false, true, true] ∧
    (footprintFeatures [10, 11, 12] ([5, 9, 9] : List ℚ) [2, 1, 4] 5).buyImb = [false, false, true] := by decide +kernel

/-- **C164 (longest run).** If no level carries both flags, a larger multiplier does not lengthen the longest run of imbalances. -/
theorem C164_run (levels : List Int) (buy sell : List K) (m m' : K) (hm : m ≤ m') (hl : buy.length = sell.length)
    (hb : ∀ x ∈ buy, 0 ≤ x) (hs : ∀ x ∈ sell, 0 ≤ x)
    (hex : ∀ l : Nat, ¬ ((footprintFeatures levels buy sell m).buyImb[l]? = some true ∧
      (footprintFeatures levels buy sell m).sellImb[l]? = some true)) :
    (footprintFeatures levels buy sell m').maxRunSigned.natAbs ≤ (footprintFeatures levels buy sell m).maxRunSigned.natAbs := by
  obtain ⟨a1, -, -⟩ := C14_footprint_run levels buy sell m hl
  obtain ⟨-, b2, -⟩ := C14_footprint_run levels buy sell m' hl
  by_cases h0 : (footprintFeatures levels buy sell m').maxRunSigned = 0
  · rw [h0]; exact Nat.zero_le _
  obtain ⟨i, hr, -⟩ := b2 h0
  refine a1 i _ ((footprintFeatures levels buy sell m').maxRunSigned.sign) ⟨hr.sign, hr.pos, by simpa using hr.inside, ?_⟩
  intro k h1 h2
  have hk := hr.const k h1 h2
  have hkl : k < buy.length := by
    have := hr.inside
    simp at this
    omega
  simp only [List.getElem?_map, List.getElem?_range hkl, Option.map_some, Option.some.injEq] at hk ⊢
  obtain ⟨f1, f2⟩ := C164_flags levels buy sell m m' hm hl hb hs k
  have hx := hex k
  rw [← hk]
  have hne := hr.sign
  rw [← hk] at hne
  by_cases hp : (footprintFeatures levels buy sell m').buyImb[k]? = some true
  · rw [if_pos hp, if_pos (f1 hp)]
  · rw [if_neg hp] at hne ⊢
    by_cases hq : (footprintFeatures levels buy sell m').sellImb[k]? = some true
    · rw [if_pos hq, if_neg (fun hc => hx ⟨hc, f2 hq⟩), if_pos (f2 hq)]
    · rw [if_neg hq] at hne
      exact absurd rfl hne

/-- **C164 (longest run, both flags).** In general a larger multiplier can lengthen the run and turn its sign: a level with both flags
counts as a buy level until its buy flag goes. -/
theorem C164_run_grows :
    (footprintFeatures [10, 11, 12, 13] ([0, 4, 0, 0] : List ℚ) [1, 10, 10, 0] 3).maxRunSigned = 1 ∧
    (footprintFeatures [10, 11, 12, 13] ([0, 4, 0, 0] : List ℚ) [1, 10, 10, 0] 5).maxRunSigned = -2 := by decide +kernel

example : (footprintFeatures [10, 11, 12] ([5, 9, 9] : List ℚ) [2, 1, 4] 3).maxRunSigned = 2 ∧
    (footprintFeatures [10, 11, 12] ([5, 9, 9] : List ℚ) [2, 1, 4] 5).maxRunSigned = 1 ∧
    (footprintFeatures [10, 11, 12] ([5, 9, 9] : List ℚ) [2, 1, 4] 3).sellImb = [false, false, false] := by decide +kernel

/-! ## Value area -/

theorem greedyIter_nested (vols : List K) (p : Nat) (hp : p < vols.length) (m d : Nat) :
    ((greedyNext vols)^[m + d] (p, p)).1 ≤ ((greedyNext vols)^[m] (p, p)).1 ∧
    ((greedyNext vols)^[m] (p, p)).2 ≤ ((greedyNext vols)^[m + d] (p, p)).2 := by
  induction d with
  | zero => exact ⟨le_refl _, le_refl _⟩
  | succ d ih =>
    rw [← Nat.add_assoc, Function.iterate_succ_apply']
    obtain ⟨a, b, c⟩ := greedyIter_bounds vols p hp (m + d)
    obtain ⟨e, f, -⟩ := greedyNext_bounds vols _ (le_trans a b) c
    exact ⟨le_trans e ih.1, le_trans ih.2 f⟩

/-- **C164 (value area).** On ascending price levels the value area of a larger percentage contains that of a smaller one; the point of
control is the same. -/
theorem C164_value_area (levels : List Int) (vols : List K) (pct pct' : K) (hne : vols ≠ []) (hlen : levels.length = vols.length)
    (hpos : ∀ x ∈ vols, 0 ≤ x) (hs : levels.Pairwise (· < ·)) (hp : pct ≤ pct') (hp' : pct' ≤ 100) :
    (compPocHvaLva levels vols pct').1 = (compPocHvaLva levels vols pct).1 ∧
    (compPocHvaLva levels vols pct).2.1 ≤ (compPocHvaLva levels vols pct').2.1 ∧
    (compPocHvaLva levels vols pct').2.2 ≤ (compPocHvaLva levels vols pct).2.2 := by
  obtain ⟨p, m, lo, hi, a1, a2, a3, a4, a5, a6, a7, a8⟩ := C40_value_area_greedy levels vols pct hne hlen hpos (le_trans hp hp')
  obtain ⟨q, n, lo', hi', b1, b2, b3, b4, b5, b6, b7, b8⟩ := C40_value_area_greedy levels vols pct' hne hlen hpos hp'
  have hpoc : (compPocHvaLva levels vols pct').1 = (compPocHvaLva levels vols pct).1 := rfl
  obtain ⟨hp1, hp2⟩ := List.getElem?_eq_some_iff.mp a6
  obtain ⟨hq1, hq2⟩ := List.getElem?_eq_some_iff.mp b6
  obtain ⟨hh1, hh2⟩ := List.getElem?_eq_some_iff.mp a7
  obtain ⟨hh1', hh2'⟩ := List.getElem?_eq_some_iff.mp b7
  obtain ⟨hl1, hl2⟩ := List.getElem?_eq_some_iff.mp a8
  obtain ⟨hl1', hl2'⟩ := List.getElem?_eq_some_iff.mp b8
  have hsort : ∀ i j (h1 : i < levels.length) (h2 : j < levels.length), i ≤ j → levels[i] ≤ levels[j] := by
    intro i j h1 h2 hij
    rcases Nat.lt_or_ge i j with h | h
    · exact le_of_lt (List.pairwise_iff_getElem.mp hs i j h1 h2 h)
    · obtain rfl : i = j := by omega
      exact le_refl _
  have hpq : q = p := by
    have he : levels[q] = levels[p] := by rw [hq2, hp2, hpoc]
    rcases Nat.lt_trichotomy q p with h | h | h
    · have := List.pairwise_iff_getElem.mp hs q p hq1 hp1 h
      omega
    · exact h
    · have := List.pairwise_iff_getElem.mp hs p q hp1 hq1 h
      omega
  subst hpq
  have hthr : vols.sum * (pct / 100) ≤ vols.sum * (pct' / 100) :=
    mul_le_mul_of_nonneg_left (div_le_div_of_nonneg_right hp (by norm_num)) (List.sum_nonneg hpos)
  have hmn : m ≤ n := by
    by_contra hc
    have h1 := a2 n (by omega)
    rw [b1] at h1
    exact absurd (lt_of_lt_of_le h1 hthr) (not_lt.mpr b3)
  obtain ⟨c1, c2⟩ := greedyIter_nested vols q (by omega) m (n - m)
  rw [show m + (n - m) = n by omega, a1, b1] at c1 c2
  refine ⟨hpoc, ?_, ?_⟩
  · rw [← hh2, ← hh2']; exact hsort _ _ _ _ c2
  · rw [← hl2, ← hl2']; exact hsort _ _ _ _ c1

example : compPocHvaLva [10, 11, 12, 13, 14, 15] ([1, 2, 9, 1, 1, 1] : List ℚ) 75 = (12, 12, 10) ∧
    compPocHvaLva [10, 11, 12, 13, 14, 15] ([1, 2, 9, 1, 1, 1] : List ℚ) 90 = (12, 14, 10) := by decide +kernel

/-! ## Events and labels -/

theorem targetOk_mono (mx : Ext K) (r r' : K) (h : r ≤ r') (t : Option K) (ht : targetOk mx r' t = true) : targetOk mx r t = true := by
  unfold targetOk at *
  cases t with
  | none => exact ht
  | some t =>
    dsimp only at *
    generalize mx.scale |t| = e at *
    cases e with
    | fin x => exact decide_eq_true (le_trans h (of_decide_eq_true ht))
    | pinf => rfl
    | ninf => exact ht
    | nan => exact ht

theorem filter_sublist_of_imp {α : Type} (p q : α → Bool) (h : ∀ x, p x = true → q x = true) (l : List α) :
    (l.filter p).Sublist (l.filter q) := by
  have e : l.filter p = (l.filter q).filter p := by
    rw [List.filter_filter]
    apply List.filter_congr
    intro x _
    cases hp : p x with
    | false => rfl
    | true => rw [h x hp]; rfl
  rw [e]
  exact List.filter_sublist

/-- **C164 (usable events).** A larger minimum return keeps a part of the events: if it leaves any, the smaller one does, too, and keeps
all of them, in the same order. -/
theorem C164_events (nCols : Nat) (mx : Ext K) (r r' : K) (h : r ≤ r') (rows out' : List (EventRow K))
    (ho : preprocessEvents nCols mx r' rows = .ok out') :
    ∃ out, preprocessEvents nCols mx r rows = .ok out ∧ out'.Sublist out := by
  unfold preprocessEvents at *
  cases hst : startTime nCols rows with
  | none => rw [hst] at ho; cases ho
  | some s =>
    rw [hst] at ho
    dsimp only at *
    generalize rows.filter (fun r => decide (s ≤ r.ts)) = l at *
    have hsub := filter_sublist_of_imp (fun e : EventRow K => targetOk mx r' e.target) (fun e => targetOk mx r e.target)
      (fun e he => targetOk_mono mx r r' h e.target he) l
    by_cases he : (l.filter (fun e => targetOk mx r' e.target)).isEmpty = true
    · rw [if_pos he] at ho; cases ho
    rw [if_neg he] at ho
    by_cases ha : (l.filter (fun e => targetOk mx r' e.target)).any (fun e => e.target.isNone) = true
    · rw [if_pos ha] at ho; cases ho
    rw [if_neg ha] at ho
    obtain rfl := Except.ok.inj ho
    refine ⟨l.filter (fun e => targetOk mx r e.target), ?_, hsub⟩
    rw [if_neg, if_neg]
    · intro hc
      obtain ⟨e, he1, he2⟩ := List.any_eq_true.mp hc
      have := (List.mem_filter.mp he1).2
      cases ht : e.target with
      | none => rw [ht] at this; cases this
      | some t => rw [ht] at he2; cases he2
    · intro hc
      rw [List.isEmpty_iff] at hc
      rw [hc] at hsub
      apply he
      rw [List.isEmpty_iff]
      exact List.sublist_nil.mp hsub

example : preprocessEvents 1 (.fin 2) 1 [⟨0, [some 1], some 1, 1⟩, ⟨5, [some 1], some (3 : ℚ), 1⟩] =
      .ok [⟨0, [some 1], some 1, 1⟩, ⟨5, [some 1], some 3, 1⟩] ∧
    preprocessEvents 1 (.fin 2) 3 [⟨0, [some 1], some 1, 1⟩, ⟨5, [some 1], some (3 : ℚ), 1⟩] = .ok [⟨5, [some 1], some 3, 1⟩] := by
  decide +kernel

/-- **C164 (trailing events).** A longer vertical barrier or an earlier end of the data keeps a part of the events. -/
theorem C164_trailing (v v' last last' : Int) (hv : v ≤ v') (hl : last' ≤ last) (rows : List (EventRow K)) :
    (dropTrailing v' last' rows).Sublist (dropTrailing v last rows) := by
  unfold dropTrailing
  refine filter_sublist_of_imp _ _ ?_ rows
  intro e he
  have := of_decide_eq_true he
  exact decide_eq_true (by omega)

example : dropTrailing 5 20 [(⟨10, [], some 1, 1⟩ : EventRow ℚ), ⟨14, [], some 1, 1⟩] = [⟨10, [], some 1, 1⟩, ⟨14, [], some 1, 1⟩] ∧
    dropTrailing 8 20 [(⟨10, [], some 1, 1⟩ : EventRow ℚ), ⟨14, [], some 1, 1⟩] = [⟨10, [], some 1, 1⟩] := by decide +kernel

/-- **C164 (meta labels).** A larger minimum return turns meta labels 1 into 0 only: touch, return and weight stay; plain labels do not
depend on it. -/
theorem C164_meta_labels (p p' : TbmParams K) (hb : p'.bottom = p.bottom) (ht : p'.top = p.top) (hv : p'.vertical = p.vertical)
    (hc : p'.minClose = p.minClose) (hr : p.minRet ≤ p'.minRet) (ts : List Int) (logc : List K) (i0 : Nat) (tgt : K) (side : Int) :
    let e := tbmEvent p ts logc true i0 tgt side
    let e' := tbmEvent p' ts logc true i0 tgt side
    e'.touch = e.touch ∧ e'.ret = e.ret ∧ e'.ratio = e.ratio ∧ (e'.label = 1 → e.label = 1) ∧
    tbmEvent p' ts logc false i0 tgt side = tbmEvent p ts logc false i0 tgt side := by
  unfold tbmEvent
  rw [hb, ht, hv, hc]
  dsimp only
  split
  · exact ⟨rfl, rfl, rfl, fun h => h, rfl⟩
  · refine ⟨rfl, rfl, rfl, ?_, rfl⟩
    intro h
    dsimp only at h ⊢
    unfold tbmLabel at h ⊢
    rw [if_pos rfl] at h ⊢
    split at h
    · rename_i hge
      rw [if_pos (le_trans hr hge)]
    · exact absurd h (by decide)

example : (tbmEvent (⟨.fin 1, .fin 1, some 100, 0, 1⟩ : TbmParams ℚ) [0, 10, 20] [0, 1, 2] true 0 2 1).label = 1 ∧
    (tbmEvent (⟨.fin 1, .fin 1, some 100, 0, 3⟩ : TbmParams ℚ) [0, 10, 20] [0, 1, 2] true 0 2 1).label = 0 := by decide +kernel

end FinML

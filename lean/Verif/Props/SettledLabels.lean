/-
C123: labels and weights when trades and events are appended to the data.
-/
import Verif.Props.TbmObject

set_option linter.unusedSectionVars false

namespace FinML

variable {K : Type} [Field K] [LinearOrder K] [IsStrictOrderedRing K]

/-! ### Labels -/

theorem searchLeft_append_lt (a b : List Int) (v : Int) (h : searchLeft a v < a.length) : searchLeft (a ++ b) v = searchLeft a v := by
  unfold searchLeft at *
  induction a with
  | nil => simp at h
  | cons y a ih =>
    simp only [List.cons_append, List.takeWhile] at h ⊢
    split
    · rename_i e
      rw [e] at h
      simp only [List.length_cons] at h ⊢
      rw [ih (by omega)]
    · rfl

theorem tbmEvent_touch_lt (p : TbmParams K) (ts : List Int) (lc : List K) (isMeta : Bool) (i0 : Nat) (tgt : K) (side : Int) (t : Nat)
    (h : (tbmEvent p ts lc isMeta i0 tgt side).touch = some t) : t < ts.length := by
  have hle : verticalIdx ts (ts.getD i0 0) p.vertical ≤ (ts.length : Int) - 1 := by
    cases p.vertical with
    | none => simp [verticalIdx]
    | some v =>
      simp only [verticalIdx]
      have := searchRight_le_length ts (ts.getD i0 0 + v)
      omega
  have hloop : ∀ (js : List Nat) (a : TbmAcc K) (side base : K) (ub lb : Ext K) (t0 mc : Int) (m : Nat), (∀ j ∈ js, j ≤ m) →
      a.touch.getD m ≤ m → (tbmLoop ts lc t0 mc side base ub lb js a).touch.getD m ≤ m := by
    intro js
    induction js with
    | nil => intro a _ _ _ _ _ _ m _ ha; exact ha
    | cons j js ih =>
      intro a side base ub lb t0 mc m hj ha
      simp only [tbmLoop]
      split
      · exact ih _ _ _ _ _ _ _ m (fun k hk => hj k (by simp [hk])) ha
      · split
        · exact hj j (by simp)
        · refine ih _ _ _ _ _ _ _ m (fun k hk => hj k (by simp [hk])) ?_
          have : (tbmProgress ub lb ((lc.getD j 0 - base) * side) { a with ret := (lc.getD j 0 - base) * side }).touch = a.touch := by
            unfold tbmProgress
            split
            · rfl
            · split <;> rfl
          rw [this]; exact ha
  unfold tbmEvent at h
  simp only at h
  split at h
  · cases h
  · rename_i hlt
    simp only [Option.some.injEq] at h
    rw [← h]
    refine lt_of_le_of_lt (hloop _ _ _ _ _ _ _ _ _ ?_ (by simp)) (by omega)
    intro j hj
    rw [List.mem_range'_1] at hj
    omega

/-- **C123.** The output row of an event is final once every further trade comes after its vertical barrier, measured from the trade
that opens it. -/
theorem C123_row (log : K → K) (o : TbmObj K) (ts ts' : List Int) (close close' : List K) (hlen : ts.length = close.length)
    (r : EventRow K) (hi : tbmIndex o ts r < ts.length) (hf : ∀ t ∈ ts', ts.getD (tbmIndex o ts r) 0 + o.vertical < t) :
    tbmRow log o (ts ++ ts') (close ++ close') r = tbmRow log o ts close r := by
  have hidx : tbmIndex o (ts ++ ts') r = tbmIndex o ts r := by
    unfold tbmIndex at *
    cases hx : o.idx with
    | some f => rfl
    | none => rw [hx] at hi; exact searchLeft_append_lt _ _ _ hi
  unfold tbmRow
  simp only [hidx, List.map_append]
  rw [tbmEvent_append _ ts ts' (close.map log) (close'.map log) (by simpa using hlen) _ _ hi _ _ o.vertical rfl hf]
  congr 1
  cases ht : (tbmEvent ⟨o.bottom, o.top, some o.vertical, o.minClose, o.minRet⟩ ts (close.map log) o.isMeta (tbmIndex o ts r)
    (r.target.getD 0) (if o.isMeta then castInt8 r.side else 1)).touch with
  | none => rfl
  | some t =>
    have := tbmEvent_touch_lt _ _ _ _ _ _ _ _ ht
    simp only [Option.bind_some]
    rw [List.getElem?_append_left this]

example : let o : TbmObj ℚ := ⟨.fin 1, .fin 1, 0, 5, 0, false, none, [], [], none⟩
    ∀ t ∈ ([20, 30] : List Int), ([0, 3, 8] : List Int).getD 1 0 + o.vertical < t := by decide

/-- Filtering ordered events by a bound that grows only adds events at the end. -/
theorem filter_upto_prefix (x : List (EventRow K)) (hx : x.Pairwise (fun a b => a.ts ≤ b.ts)) (v l l' : Int) (hl : l ≤ l') :
    ∃ y, x.filter (fun r => decide (r.ts + v ≤ l')) = x.filter (fun r => decide (r.ts + v ≤ l)) ++ y := by
  induction x with
  | nil => exact ⟨[], rfl⟩
  | cons a x ih =>
    rw [List.pairwise_cons] at hx
    obtain ⟨y, hy⟩ := ih hx.2
    by_cases h : a.ts + v ≤ l
    · refine ⟨y, ?_⟩
      rw [List.filter_cons, List.filter_cons, if_pos (by simp; omega), if_pos (by simp; omega), hy]
      rfl
    · refine ⟨(a :: x).filter (fun r => decide (r.ts + v ≤ l')), ?_⟩
      have : (a :: x).filter (fun r => decide (r.ts + v ≤ l)) = [] := by
        rw [List.filter_eq_nil_iff]
        intro b hb
        rcases List.mem_cons.mp hb with rfl | hb
        · simpa using h
        · have := hx.1 b hb
          simp; omega
      rw [this]; rfl

theorem searchLeft_mem (ts : List Int) (hs : ts.Pairwise (· ≤ ·)) (v : Int) (hv : v ∈ ts) :
    searchLeft ts v < ts.length ∧ ts.getD (searchLeft ts v) 0 = v := by
  unfold searchLeft
  induction ts with
  | nil => simp at hv
  | cons a ts ih =>
    rw [List.pairwise_cons] at hs
    rw [List.takeWhile_cons]
    by_cases h : a < v
    · rw [if_pos (by simpa using h)]
      have := ih hs.2 (by rcases List.mem_cons.mp hv with e | e <;> [omega; exact e])
      simp only [List.length_cons]
      refine ⟨by omega, ?_⟩
      rw [List.getD_cons_succ]; exact this.2
    · rw [if_neg (by simpa using h)]
      refine ⟨by simp, ?_⟩
      rcases List.mem_cons.mp hv with e | e
      · simp [e]
      · have := hs.1 v e
        simp only [List.length_nil, List.getD_cons_zero]; omega

/-- **C123.** Later calls only add labels at the end: if the events are ordered, each of the labelled ones is at the time of a trade, and the
further trades come after the last one, then the rows computed from more trades and more events begin with the rows computed before. -/
theorem C123_labels (log : K → K) (o : TbmObj K) (more : List (EventRow K)) (ts ts' : List Int) (close close' : List K)
    (hm : 0 ≤ o.minRet) (hidx : o.idx = none) (hs : (ts ++ ts').Pairwise (· ≤ ·)) (l : Int) (hl : ts.getLast? = some l)
    (hlt : ∀ t ∈ ts', l < t) (hlen : ts'.length = close'.length) (ho : o.orig.Pairwise (fun a b => a.ts ≤ b.ts))
    (hev : ∀ r ∈ o.orig, r.ts + o.vertical ≤ l → r.ts ∈ ts) (hok : (tbmCompute log o ts close).2 = none) :
    (tbmCompute log { o with orig := o.orig ++ more } (ts ++ ts') (close ++ close')).2 = none ∧
    ∃ rows extra, (tbmCompute log o ts close).1.rowsOut = some rows ∧
      (tbmCompute log { o with orig := o.orig ++ more } (ts ++ ts') (close ++ close')).1.rowsOut = some (rows ++ extra) := by
  obtain ⟨h1, h2, l0, hl0, r0, hr0, hr1⟩ := (C106_compute log o hm ts close).1.mp hok
  rw [hl] at hl0; cases hl0
  obtain ⟨l', hl', hll⟩ : ∃ l', (ts ++ ts').getLast? = some l' ∧ l ≤ l' := by
    cases hq : ts'.getLast? with
    | none =>
      rw [List.getLast?_eq_none_iff] at hq
      exact ⟨l, by rw [hq, List.append_nil, hl], le_rfl⟩
    | some q =>
      refine ⟨q, by rw [List.getLast?_append, hq]; rfl, (hlt q (List.mem_of_getLast? hq)).le⟩
  have hok' : (tbmCompute log { o with orig := o.orig ++ more } (ts ++ ts') (close ++ close')).2 = none := by
    refine (C106_compute log { o with orig := o.orig ++ more } hm _ _).1.mpr
      ⟨by rw [List.length_append, List.length_append, h1, hlen], h2, l', hl', r0, List.mem_append_left _ hr0, ?_⟩
    exact hr1.trans hll
  refine ⟨hok', ?_⟩
  rw [(C106_compute log o hm ts close).2 hok l hl, (C106_compute log { o with orig := o.orig ++ more } hm _ _).2 hok' l' hl']
  simp only
  obtain ⟨y, hy⟩ := filter_upto_prefix o.orig ho o.vertical l l' hll
  rw [List.filter_append, hy, List.append_assoc, List.map_append]
  refine ⟨_, (y ++ more.filter (fun r => decide (r.ts + o.vertical ≤ l'))).map
    (tbmRow log { o with orig := o.orig ++ more } (ts ++ ts') (close ++ close')), rfl, ?_⟩
  congr 2
  apply List.map_congr_left
  intro r hr
  rw [List.mem_filter, decide_eq_true_eq] at hr
  obtain ⟨k1, k2⟩ := searchLeft_mem ts (List.pairwise_append.mp hs).1 r.ts (hev r hr.1 hr.2)
  have e : ∀ x : List Int, tbmIndex o x r = searchLeft x r.ts := fun x => by unfold tbmIndex; rw [hidx]
  have := C123_row log o ts ts' close close' h1 r (by rw [e]; exact k1) (by
    intro t ht
    rw [e, k2]
    have := hlt t ht
    omega)
  rw [← this]
  rfl

/-- **C123, violation.** An event between two trades is opened by the later one, but whether its window is complete is decided from the time
of the event: with a window of 20 the event at 5 is opened at 10 and labelled when trades reach 25, five before its barrier.  A trade at
28 turns its label from a loss into a gain. -/
theorem C123_unsettled_label :
    let o : TbmObj ℚ := { tbmDemo false 1 with orig := [⟨5, [some 2], some 2, 1⟩] }
    (tbmCompute id o [0, 10, 25] [5, 6, 5]).1.rowsOut = some [⟨5, some 25, 1, ⟨-1, some 2, some (-1), some (1 / 2)⟩⟩] ∧
    (tbmCompute id o [0, 10, 25, 28] [5, 6, 5, 9]).1.rowsOut = some [⟨5, some 28, 1, ⟨1, some 3, some 3, some 1⟩⟩] := by
  decide +kernel

/-! ### Events -/

theorem firstValid_append (c : Nat) (a b : List (EventRow K)) (h : firstValid c a ≠ none) : firstValid c (a ++ b) = firstValid c a := by
  induction a with
  | nil => simp [firstValid] at h
  | cons x a ih =>
    simp only [List.cons_append, firstValid] at h ⊢
    split
    · rfl
    · rename_i e
      rw [if_neg e] at h
      exact ih h

/-- **C123.** If every column has a value among the first rows, the events kept from more rows begin with the events kept from the first. -/
theorem C123_events (nCols : Nat) (m : Ext K) (minRet : K) (rows more : List (EventRow K)) (x : List (EventRow K))
    (hc : ∀ c, c < nCols → firstValid c rows ≠ none) (hx : preprocessEvents nCols m minRet rows = .ok x) :
    ∃ y, preprocessEvents nCols m minRet (rows ++ more) = .ok (x ++ y) := by
  have hst : startTime nCols (rows ++ more) = startTime nCols rows := by
    unfold startTime
    have : (List.range nCols).filterMap (fun c => firstValid c (rows ++ more)) = (List.range nCols).filterMap (fun c => firstValid c rows) := by
      apply List.filterMap_congr
      intro c h
      rw [List.mem_range] at h
      exact firstValid_append c rows more (hc c h)
    rw [this]
  unfold preprocessEvents at hx ⊢
  rw [hst]
  cases hs : startTime nCols rows with
  | none => rw [hs] at hx; cases hx
  | some s =>
    rw [hs] at hx
    simp only at hx ⊢
    split at hx
    · cases hx
    rename_i h1
    split at hx
    · cases hx
    injection hx with hx
    refine ⟨(more.filter (fun r => decide (s ≤ r.ts))).filter (fun r => targetOk m minRet r.target), ?_⟩
    rw [List.filter_append, List.filter_append, hx, if_neg, if_neg]
    · rw [Bool.not_eq_true, List.any_eq_false]
      intro r hr hn
      rw [List.mem_append] at hr
      rcases hr with hr | hr
      · rw [← hx, List.mem_filter] at hr
        rw [Option.isNone_iff_eq_none] at hn
        rw [hn] at hr
        simp [targetOk] at hr
      · rw [List.mem_filter] at hr
        rw [Option.isNone_iff_eq_none] at hn
        rw [hn] at hr
        simp [targetOk] at hr
    · intro hcon
      rw [List.isEmpty_iff, List.append_eq_nil_iff] at hcon
      apply h1
      rw [hx, hcon.1]; rfl

example : (preprocessEvents 1 (.fin 1) (1 / 10) [⟨10, [some 3], some (1 : ℚ), 1⟩]).isOk = true ∧ firstValid 0 [(⟨10, [some 3], some 1, 1⟩ : EventRow ℚ)] = some 10 := by decide +kernel

/-- **C123, violation.** A column without any value is ignored; its first value removes all events before it. -/
theorem C123_late_column :
    (preprocessEvents 2 (.fin (1 : ℚ)) 0 [⟨0, [some 1, none], some 1, 1⟩, ⟨10, [some 1, none], some 1, 1⟩]).toOption.map (·.map (·.ts)) =
      some [0, 10] ∧
    (preprocessEvents 2 (.fin (1 : ℚ)) 0 [⟨0, [some 1, none], some 1, 1⟩, ⟨10, [some 1, none], some 1, 1⟩, ⟨20, [some 1, some 1], some 1, 1⟩]).toOption.map
      (·.map (·.ts)) = some [20] := by
  decide +kernel

/-! ### Weights -/

theorem openLabels_append (a b : List (Nat × Nat)) (j : Nat) : openLabels (a ++ b) j = openLabels a j + openLabels b j := by
  unfold openLabels; exact List.countP_append

theorem sum_map_le_eq_iff {α : Type} (l : List α) (f g : α → K) (h : ∀ x ∈ l, f x ≤ g x) :
    (l.map f).sum ≤ (l.map g).sum ∧ ((l.map f).sum = (l.map g).sum ↔ ∀ x ∈ l, f x = g x) := by
  induction l with
  | nil => simp
  | cons a l ih =>
    obtain ⟨i1, i2⟩ := ih (fun x hx => h x (by simp [hx]))
    have ha := h a (by simp)
    simp only [List.map_cons, List.sum_cons, List.mem_cons, forall_eq_or_imp]
    refine ⟨by linarith, ⟨fun e => ?_, fun e => ?_⟩⟩
    · have e1 : f a = g a := by linarith
      exact ⟨e1, i2.mp (by linarith)⟩
    · rw [e.1, i2.mpr e.2]

/-- **C123.** More labels only lower the average uniqueness of a label, and it stays the same exactly when none of the new labels meets
the label's span. -/
theorem C123_uniqueness {n n' : Nat} (hn : n ≤ n') {spans new : List (Nat × Nat)} (hc : (spans ++ new).length < 32768)
    (hv : ∀ s ∈ spans, s.1 ≤ s.2 ∧ s.2 < n) (hv' : ∀ s ∈ new, s.1 ≤ s.2 ∧ s.2 < n') (i : Nat) (hi : i < spans.length) :
    ∃ w w' : K, (averageUniqueness n spans).1[i]? = some (some w) ∧ (averageUniqueness n' (spans ++ new)).1[i]? = some (some w') ∧
      w' ≤ w ∧ (w' = w ↔ ∀ s ∈ new, s.2 < spans[i].1 ∨ spans[i].2 < s.1) := by
  have hva : ∀ s ∈ spans ++ new, s.1 ≤ s.2 ∧ s.2 < n' := by
    intro s hs
    rcases List.mem_append.mp hs with h | h
    · have := hv s h; omega
    · exact hv' s h
  have hs := hv spans[i] (List.getElem_mem hi)
  have hi' : i < (spans ++ new).length := by rw [List.length_append]; omega
  rw [C27_weight_is_mean (by rw [List.length_append] at hc; omega) hv, C27_weight_is_mean hc hva, List.getElem?_map, List.getElem?_map,
    List.getElem?_eq_getElem hi, List.getElem?_eq_getElem hi', List.getElem_append_left hi]
  refine ⟨_, _, rfl, rfl, ?_⟩
  have hc0 : (0 : K) < ((spans[i].2 + 1 - spans[i].1 : Nat) : K) := by exact_mod_cast (by omega : 0 < spans[i].2 + 1 - spans[i].1)
  have hpos : ∀ j ∈ List.range' spans[i].1 (spans[i].2 + 1 - spans[i].1), 0 < openLabels spans j := by
    intro j hj
    rw [List.mem_range'_1] at hj
    exact openLabels_pos (List.getElem_mem hi) hj.1 (by omega)
  have hterm : ∀ j ∈ List.range' spans[i].1 (spans[i].2 + 1 - spans[i].1),
      1 / (openLabels (spans ++ new) j : K) ≤ 1 / (openLabels spans j : K) ∧
      (1 / (openLabels (spans ++ new) j : K) = 1 / (openLabels spans j : K) ↔ openLabels new j = 0) := by
    intro j hj
    have h0 : (0 : K) < (openLabels spans j : K) := by exact_mod_cast hpos j hj
    rw [openLabels_append]
    push_cast
    have h1 : (0 : K) ≤ (openLabels new j : K) := by positivity
    refine ⟨one_div_le_one_div_of_le h0 (by linarith), ?_⟩
    rw [one_div, one_div, inv_inj, add_eq_left, Nat.cast_eq_zero]
  obtain ⟨k1, k2⟩ := sum_map_le_eq_iff (List.range' spans[i].1 (spans[i].2 + 1 - spans[i].1))
    (fun j => 1 / (openLabels (spans ++ new) j : K)) (fun j => 1 / (openLabels spans j : K)) (fun j hj => (hterm j hj).1)
  refine ⟨div_le_div_of_nonneg_right k1 hc0.le, ?_⟩
  rw [div_left_inj' hc0.ne', k2]
  constructor
  · intro h s hs'
    by_contra hcon
    push Not at hcon
    have hb := hv' s hs'
    have hj : max s.1 spans[i].1 ∈ List.range' spans[i].1 (spans[i].2 + 1 - spans[i].1) := by
      rw [List.mem_range'_1]; omega
    have h0 := (hterm _ hj).2.mp (h _ hj)
    have := openLabels_pos hs' (le_max_left s.1 spans[i].1) (by omega)
    omega
  · intro h j hj
    refine (hterm j hj).2.mpr ?_
    rw [List.mem_range'_1] at hj
    unfold openLabels
    rw [List.countP_eq_zero]
    intro s hs'
    have := h s hs'
    simp; omega

example : (∀ s ∈ ([(0, 2), (1, 3)] : List (Nat × Nat)), s.1 ≤ s.2 ∧ s.2 < 4) ∧ (∀ s ∈ ([(3, 5)] : List (Nat × Nat)), s.1 ≤ s.2 ∧ s.2 < 6) ∧
    (averageUniqueness 4 [(0, 2), (1, 3)]).1 = [some (2 / 3 : ℚ), some (2 / 3)] ∧
    (averageUniqueness 6 [(0, 2), (1, 3), (3, 5)]).1 = [some (2 / 3 : ℚ), some (1 / 2), some (5 / 6)] := by decide +kernel

/-- **C123.** The return attribution of a label that no new label meets is unchanged by further prices and labels. -/
theorem C123_attribution (log : K → K) {n n' : Nat} (hn : n ≤ n') {spans new : List (Nat × Nat)} (close close' : List K)
    (hlen : close.length = n) (hlen' : (close ++ close').length = n') (hv : ∀ s ∈ spans, s.1 ≤ s.2 ∧ s.2 < n)
    (hv' : ∀ s ∈ new, s.2 < n') :
    ∃ a b, returnAttribution log spans close (concurrency n spans) false = .ok a ∧
      returnAttribution log (spans ++ new) (close ++ close') (concurrency n' (spans ++ new)) false = .ok b ∧
      ∀ i (hi : i < spans.length), (∀ s ∈ new, s.2 < spans[i].1 ∨ spans[i].2 < s.1) → b[i]? = a[i]? := by
  refine ⟨_, _, C28_raw log spans close _ (fun s hs => hlen ▸ (hv s hs).2), C28_raw log (spans ++ new) (close ++ close') _ ?_, ?_⟩
  · intro s hs
    rw [hlen']
    rcases List.mem_append.mp hs with h | h
    · have := hv s h; omega
    · exact hv' s h
  intro i hi h
  have hs := hv spans[i] (List.getElem_mem hi)
  rw [List.getElem?_map, List.getElem?_map, List.getElem?_append_left hi, List.getElem?_eq_getElem hi]
  simp only [Option.map_some, Option.some.injEq]
  congr 2
  apply List.map_congr_left
  intro j hj
  rw [List.mem_range'_1] at hj
  have hj' : j < n := by omega
  have ec : (concurrency n' (spans ++ new)).getD j 0 = (concurrency n spans).getD j 0 := by
    have e0 : openLabels new j = 0 := by
      unfold openLabels
      rw [List.countP_eq_zero]
      intro s hs'
      have := h s hs'
      simp; omega
    rw [List.getD_eq_getElem?_getD, List.getD_eq_getElem?_getD, (C27_concurrency n' (spans ++ new)).2 j (by omega),
      (C27_concurrency n spans).2 j hj', openLabels_append, e0, Nat.add_zero]
  unfold sharedReturn
  rw [ec, getD_append_left close close' 0 j (by omega)]
  by_cases h0 : j = 0
  · rw [if_pos (Or.inl h0), if_pos (Or.inl h0)]
  · rw [getD_append_left close close' 0 (j - 1) (by omega)]

example : ([1, 2, 3, (4 : ℚ)]).length = 4 ∧ ([1, 2, 3, (4 : ℚ)] ++ [5, 6]).length = 6 ∧ (∀ s ∈ ([(0, 2)] : List (Nat × Nat)), s.1 ≤ s.2 ∧ s.2 < 4) ∧
    ∀ s ∈ ([(3, 5)] : List (Nat × Nat)), s.2 < 6 := by decide

/-- **C123, violation.** Weights of settled labels do change: the label at 10 loses uniqueness when a label that begins inside its span becomes
complete, though its own row is the same as before. -/
theorem C123_weights_repaint :
    let o := { tbmDemo false 1 with orig := (tbmDemo false 1).orig ++ [⟨20, [some 2], some 2, 1⟩] }
    let a := (tbmCompute id o [0, 10, 20, 30] [5, 6, 7, 7]).1
    let b := (tbmCompute id o [0, 10, 20, 30, 40] [5, 6, 7, 7, 7]).1
    a.rowsOut = some [⟨0, some 20, 0, ⟨1, some 2, some 2, some 1⟩⟩, ⟨10, some 30, 1, ⟨1, some 3, some 1, some (1 / 2)⟩⟩] ∧
    b.rowsOut.map (·.take 2) = a.rowsOut ∧
    (tbmWeights id a [0, 10, 20, 30] [5, 6, 7, 7] false).toOption.map (·.map (·.2.1)) = some [some (2 / 3), some (2 / 3)] ∧
    (tbmWeights id b [0, 10, 20, 30, 40] [5, 6, 7, 7, 7] false).toOption.map (·.map (·.2.1)) =
      some [some (11 / 18), some (4 / 9), some (11 / 18)] := by
  decide +kernel

/-! ### Non-vacuity -/

/-- Data that satisfies the hypotheses of `C123_labels`, with one more label afterwards. -/
example : (∀ r ∈ (tbmDemo false 1).orig, r.ts ∈ ([0, 10, 20] : List Int)) ∧ (tbmCompute id (tbmDemo false 1) [0, 10, 20] [5, 6, 9]).2 = none ∧
    ((tbmCompute id (tbmDemo false 1) [0, 10, 20] [5, 6, 9]).1.rowsOut.map List.length = some 1) ∧
    ((tbmCompute id (tbmDemo false 1) [0, 10, 20, 30] [5, 6, 9, 1]).1.rowsOut.map List.length = some 2) := by
  decide +kernel

/-- Both cases of `C123_uniqueness`: a later label that does not meet the first one, and one that does. -/
example : (averageUniqueness (K := ℚ) 3 [(0, 1)]).1 = [some 1] ∧ (averageUniqueness (K := ℚ) 4 [(0, 1), (2, 3)]).1 = [some 1, some 1] ∧
    (averageUniqueness (K := ℚ) 4 [(0, 1), (1, 3)]).1 = [some (3 / 4), some (5 / 6)] := by decide +kernel

/-- Events kept, and kept again with a further row. -/
example : (preprocessEvents 1 (.fin (1 : ℚ)) 0 [⟨0, [none], some 1, 1⟩, ⟨10, [some 1], some 1, 1⟩]).toOption.map (·.map (·.ts)) = some [10] ∧
    (preprocessEvents 1 (.fin (1 : ℚ)) 0 [⟨0, [none], some 1, 1⟩, ⟨10, [some 1], some 1, 1⟩, ⟨20, [none], some 1, 1⟩]).toOption.map
      (·.map (·.ts)) = some [10, 20] := by decide +kernel

end FinML

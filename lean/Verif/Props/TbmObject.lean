/-
C106: the `TBMLabel` object (`finmlkit/label/kit.py`): what a call of `compute_labels` leaves in the object, and what later
calls and the sample weights read from it.
-/
import Verif.Model.TbmObject
import Verif.Props.TbmLabel
import Verif.Props.Weights

set_option linter.unusedSectionVars false

namespace FinML

variable {K : Type} [Field K] [LinearOrder K] [IsStrictOrderedRing K]

/-- C106: construction succeeds exactly when the target column exists, the index is made of times, two multipliers are
given as a tuple, `min_ret` is not negative, a meta labeller has an integer side column, and some event qualifies (C53);
the object then holds the qualifying events and no labels. -/
theorem C106_construct (a : TbmArgs K) (o : TbmObj K) :
    tbmNew a = .ok o ↔ a.hasTarget = true ∧ a.datetimeIndex = true ∧ 0 ≤ a.minRet ∧
      (a.isMeta = true → a.sideInteger = some true) ∧
      ∃ b t x, a.barriers = some [b, t] ∧ preprocessEvents a.nCols (b.npMax t) a.minRet a.rows = .ok x ∧
        o = ⟨b, t, a.minRet, a.vertical, a.minClose, a.isMeta, a.idx, x, x, none⟩ := by
  unfold tbmNew
  constructor
  · intro h
    split at h
    · cases h
    rename_i h1
    split at h
    · cases h
    rename_i h2
    split at h
    · rename_i b t hb
      split at h
      · cases h
      rename_i h3
      split at h
      · cases h
      rename_i h4
      split at h
      · cases h
      rename_i h5
      split at h
      · cases h
      · rename_i x hx
        simp only [Except.ok.injEq] at h
        refine ⟨by simpa using h1, by simpa using h2, not_lt.mp h3, ?_, b, t, x, hb, hx, h.symm⟩
        intro hm
        rw [hm] at h4 h5
        cases hs : a.sideInteger with
        | none => simp [hs] at h4
        | some v => cases v <;> simp_all
    · cases h
  · rintro ⟨h1, h2, h3, h4, b, t, x, hb, hx, rfl⟩
    rw [h1, h2, hb]
    simp only [Bool.not_true, Bool.false_eq_true, if_false]
    rw [if_neg (not_lt.mpr h3)]
    have h5 : ¬ ((a.isMeta && decide (a.sideInteger = none)) = true) := by
      intro h
      rw [Bool.and_eq_true, decide_eq_true_eq] at h
      rw [h4 h.1] at h; simp at h
    have h6 : ¬ ((a.isMeta && decide (a.sideInteger = some false)) = true) := by
      intro h
      rw [Bool.and_eq_true, decide_eq_true_eq] at h
      rw [h4 h.1] at h; simp at h
    rw [if_neg h5, if_neg h6, hx]

example : ((tbmNew (⟨[⟨0, [some 1], some 1, 1⟩, ⟨10, [some 1], some 1, -1⟩, ⟨20, [some (1/8)], some (1/8), -1⟩], 1, true, true,
    some [.fin 2, .fin 1], 1, 50, 0, true, some true, none⟩ : TbmArgs ℚ)).toOption.map (fun o => o.feats.map (·.ts))) =
    some [0, 10] := by decide +kernel

/-- C106: before the first successful call there are no labels and no weights to read. -/
theorem C106_before_labels (log : K → K) (a : TbmArgs K) (o : TbmObj K) (h : tbmNew a = .ok o) (ts : List Int) (close : List K)
    (n : Bool) : (∃ e, tbmLabels o = .error e) ∧ ∃ e, tbmWeights log o ts close n = .error e := by
  obtain ⟨-, -, -, -, b, t, x, -, -, rfl⟩ := (C106_construct a o).mp h
  exact ⟨⟨_, rfl⟩, ⟨_, rfl⟩⟩

/-- The output row of one event. -/
def tbmRow (log : K → K) (o : TbmObj K) (ts : List Int) (close : List K) (r : EventRow K) : TbmRowOut K :=
  let e := tbmEvent ⟨o.bottom, o.top, some o.vertical, o.minClose, o.minRet⟩ ts (close.map log) o.isMeta (tbmIndex o ts r)
    (r.target.getD 0) (if o.isMeta then castInt8 r.side else 1)
  ⟨r.ts, e.touch.bind (fun t => ts[t]?), tbmIndex o ts r, e⟩

/-- C106: a call succeeds exactly when there are trades, one price per trade, a positive vertical barrier, and at least one
event whose whole window ends by the last trade; the object then holds exactly those events, in order, and one output row
for each of them at the same position and with the same time: the triple-barrier result (C24) of the event's trade index,
target and side. -/
theorem C106_compute (log : K → K) (o : TbmObj K) (hm : 0 ≤ o.minRet) (ts : List Int) (close : List K) :
    ((tbmCompute log o ts close).2 = none ↔ ts.length = close.length ∧ 0 < o.vertical ∧
      ∃ l, ts.getLast? = some l ∧ ∃ r ∈ o.orig, r.ts + o.vertical ≤ l) ∧
    ((tbmCompute log o ts close).2 = none → ∀ l, ts.getLast? = some l →
      (tbmCompute log o ts close).1 = { o with
        feats := o.orig.filter (fun r => decide (r.ts + o.vertical ≤ l))
        rowsOut := some ((o.orig.filter (fun r => decide (r.ts + o.vertical ≤ l))).map (tbmRow log o ts close)) }) := by
  unfold tbmCompute
  cases hl : ts.getLast? with
  | none => simp
  | some l =>
    simp only [dropTrailing, Option.some.injEq, forall_eq', exists_eq_left']
    have hmem : (∃ r ∈ o.orig, r.ts + o.vertical ≤ l) ↔ o.orig.filter (fun r => decide (r.ts + o.vertical ≤ l)) ≠ [] := by
      rw [Ne, List.filter_eq_nil_iff]
      simp
    rw [hmem]
    generalize o.orig.filter (fun r => decide (r.ts + o.vertical ≤ l)) = x
    by_cases hv : 0 < o.vertical
    swap
    · unfold tripleBarrier
      rw [if_pos (by simpa [verticalBad] using hv)]
      simp [hv]
    by_cases hc : ts.length = close.length
    swap
    · unfold tripleBarrier
      rw [if_neg (by simpa [verticalBad] using hv), if_neg (not_lt.mpr hm), if_pos hc]
      simp [hc]
    by_cases hx : x = []
    · subst hx
      unfold tripleBarrier
      rw [if_neg (by simpa [verticalBad] using hv), if_neg (not_lt.mpr hm), if_neg (not_not.mpr hc)]
      simp
    have hres : tripleBarrier log ⟨o.bottom, o.top, some o.vertical, o.minClose, o.minRet⟩ ts close (x.map (tbmIndex o ts))
        (x.map (fun r => r.target.getD 0)) (if o.isMeta then some (x.map (fun r => castInt8 r.side)) else none) =
        .ok (x.map (fun r => (tbmRow log o ts close r).out)) := by
      unfold tripleBarrier
      rw [if_neg (by simpa [verticalBad] using hv), if_neg (not_lt.mpr hm), if_neg (not_not.mpr hc), if_neg (by simp),
        if_neg (by simpa using hx)]
      cases hmt : o.isMeta with
      | false =>
        simp only [Bool.false_eq_true, if_false, tbmRow, hmt]
        rw [List.zipWith_map, List.zipWith_self]
      | true =>
        simp only [if_true, tbmRow, hmt]
        rw [if_neg (by simp), List.zip_map', List.zipWith_map, List.zipWith_self]
    rw [hres]
    refine ⟨by simp [hc, hv, hx], ?_⟩
    intro _
    simp only
    congr 2
    rw [List.zip_map']
    have hz : ∀ (f : EventRow K → Nat × TbmOut K) (g : EventRow K → Nat × TbmOut K → TbmRowOut K),
        List.zipWith g x (x.map f) = x.map (fun r => g r (f r)) := by
      intro f g
      rw [List.zipWith_map_right, List.zipWith_self]
    rw [hz]
    rfl

/-- A labeller with two events. -/
def tbmDemo (isMeta : Bool) (side : Int) : TbmObj ℚ :=
  ⟨.fin 1, .fin 1, 0, 20, 0, isMeta, none, [⟨0, [some 2], some 2, side⟩, ⟨10, [some 2], some 2, side⟩],
    [⟨0, [some 2], some 2, side⟩, ⟨10, [some 2], some 2, side⟩], none⟩

example : (tbmCompute id (tbmDemo false 1) [0, 10, 20, 30] [5, 6, 9, 1]).2 = none ∧
    (tbmCompute id (tbmDemo false 1) [0, 10, 20, 30] [5, 6, 9, 1]).1.rowsOut =
      some [⟨0, some 20, 0, ⟨1, some 2, some 4, some 1⟩⟩, ⟨10, some 20, 1, ⟨1, some 2, some 3, some 1⟩⟩] := by
  decide +kernel

/-- C106: no call changes the configuration or the events given at construction. -/
theorem C106_events_kept (log : K → K) (o : TbmObj K) (cs : List (List Int × List K)) :
    { tbmCalls log o cs with feats := o.feats, rowsOut := o.rowsOut } = o := by
  induction cs generalizing o with
  | nil => rfl
  | cons c cs ih =>
    have h1 : { (tbmCompute log o c.1 c.2).1 with feats := o.feats, rowsOut := o.rowsOut } = o := by
      unfold tbmCompute
      cases c.1.getLast? with
      | none => rfl
      | some l => simp only; split <;> rfl
    have h2 := ih (tbmCompute log o c.1 c.2).1
    simp only [tbmCalls]
    generalize tbmCalls log (tbmCompute log o c.1 c.2).1 cs = z at h2 ⊢
    generalize (tbmCompute log o c.1 c.2).1 = y at h1 h2 ⊢
    rw [← h1, ← h2]

/-- Two objects that differ only in what calls have left in them. -/
theorem tbmCompute_state (log : K → K) (o : TbmObj K) (f : List (EventRow K)) (w : Option (List (TbmRowOut K)))
    (ts : List Int) (close : List K) :
    (tbmCompute log { o with feats := f, rowsOut := w } ts close).2 = (tbmCompute log o ts close).2 ∧
    ((tbmCompute log o ts close).2 = none →
      (tbmCompute log { o with feats := f, rowsOut := w } ts close).1 = (tbmCompute log o ts close).1) := by
  have hi : tbmIndex { o with feats := f, rowsOut := w } ts = tbmIndex o ts := rfl
  unfold tbmCompute
  cases ts.getLast? with
  | none => simp
  | some l =>
    simp only [hi]
    split <;> simp

/-- C106: calls do not accumulate.  After any sequence of calls, successful or not, the outcome of the next call, and if it
succeeds the whole object, are those of the same call on the freshly built object. -/
theorem C106_history (log : K → K) (o : TbmObj K) (cs : List (List Int × List K)) (ts : List Int) (close : List K) :
    (tbmCompute log (tbmCalls log o cs) ts close).2 = (tbmCompute log o ts close).2 ∧
    ((tbmCompute log o ts close).2 = none →
      (tbmCompute log (tbmCalls log o cs) ts close).1 = (tbmCompute log o ts close).1) := by
  have h : tbmCalls log o cs = { o with feats := (tbmCalls log o cs).feats, rowsOut := (tbmCalls log o cs).rowsOut } := by
    have := C106_events_kept log o cs
    generalize tbmCalls log o cs = z at this ⊢
    rw [← this]
  rw [h]
  exact tbmCompute_state log o _ _ ts close

example : (tbmCompute id (tbmCalls id (tbmDemo false 1) [([0, 40], [1, 2]), ([], [])]) [0, 10, 20, 30] [5, 6, 9, 1]).2 =
    none := by decide +kernel

/-- C106: a failed call keeps the labels of the last successful one, but (when there are trades) it has already replaced
the features by the events that the new trades cover. -/
theorem C106_failed_call (log : K → K) (o : TbmObj K) (ts : List Int) (close : List K)
    (h : (tbmCompute log o ts close).2 ≠ none) :
    (tbmCompute log o ts close).1.rowsOut = o.rowsOut ∧
    (ts = [] → (tbmCompute log o ts close).1 = o) ∧
    ∀ l, ts.getLast? = some l → (tbmCompute log o ts close).1 =
      { o with feats := o.orig.filter (fun r => decide (r.ts + o.vertical ≤ l)) } := by
  unfold tbmCompute at h ⊢
  cases hl : ts.getLast? with
  | none => simp
  | some l =>
    simp only [hl] at h ⊢
    split at h
    · refine ⟨rfl, ?_, ?_⟩
      · rintro rfl; simp at hl
      · intro l' h'; cases h'; rfl
    · exact absurd rfl h

/-- C106 fails across an exception: after a good call and a failing one, `features` is empty while `labels` still returns
the two labels of the first call. -/
theorem C106_features_labels_differ :
    let o := tbmCalls id (tbmDemo false 1) [([0, 10, 20, 30], [5, 6, 9, 1]), ([0, 10], [5, 6])]
    o.feats = [] ∧ (tbmLabels o).toOption = some [1, 1] := by
  decide +kernel

/-- C106: a side column is read modulo 256: values from -128 to 127 are unchanged, and two sides that differ by a multiple
of 256 are the same side. -/
theorem C106_side_cast (x : Int) :
    -128 ≤ castInt8 x ∧ castInt8 x ≤ 127 ∧ (∃ k, castInt8 x = x + 256 * k) ∧
    (castInt8 x = x ↔ -128 ≤ x ∧ x ≤ 127) := by
  unfold castInt8
  refine ⟨by omega, by omega, ⟨-((x + 128) / 256), by omega⟩, by omega⟩

/-- C106: an unsigned side column that stores "short" as 255 works, a column that stores "long" as 255 is read as short. -/
theorem C106_side_wraps : castInt8 255 = -1 ∧ castInt8 256 = 0 ∧
    (tbmLabels (tbmCompute id (tbmDemo true 255) [0, 10, 20, 30] [5, 6, 9, 1]).1).toOption = some [0, 0] ∧
    (tbmLabels (tbmCompute id (tbmDemo true 127) [0, 10, 20, 30] [5, 6, 9, 1]).1).toOption = some [1, 1] := by
  decide +kernel

theorem tbmLoop_zero (ts : List Int) (logc : List K) (t0 mc : Int) (base u l : K) (hu : 0 < u) (hl : l < 0) (js : List Nat) :
    tbmLoop ts logc t0 mc 0 base (.fin u) (.fin l) js ⟨none, 0, 0, 0⟩ = ⟨none, 0, 0, 0⟩ := by
  induction js with
  | nil => rfl
  | cons j js ih =>
    simp only [tbmLoop, mul_zero]
    have hp : tbmProgress (.fin u) (.fin l) 0 (⟨none, 0, 0, 0⟩ : TbmAcc K) = ⟨none, 0, 0, 0⟩ := by
      simp [tbmProgress, Ext.valid, hu.ne', hl.ne]
    rw [hp]
    have hf : ((Ext.fin u).leFin 0 || (Ext.fin l).geFin 0) = false := by
      simp [Ext.leFin, Ext.geFin, hu, hl]
    rw [hf]
    simp [ih]

/-- C106: an event whose primary model said 0 never touches a (finite, non-zero) horizontal barrier: it runs to the vertical
barrier with return 0 and vertical touch weight 0, and is labelled 1 exactly when `min_ret` is 0. -/
theorem C106_zero_side (p : TbmParams K) (hm : 0 ≤ p.minRet) (ts : List Int) (logc : List K) (i0 : Nat) (tgt T B : K)
    (ht : 0 < tgt) (hT : 0 < T) (hB : 0 < B) (h1 : p.top = .fin T) (h2 : p.bottom = .fin B) (t1 : Nat)
    (hv : verticalIdx ts (ts.getD i0 0) p.vertical = (t1 : Int)) (hlt : i0 < t1) :
    tbmEvent p ts logc true i0 tgt 0 = ⟨if p.minRet = 0 then 1 else 0, some t1, some 0, some 0⟩ := by
  have hu : 0 < tgt * T := mul_pos ht hT
  have hl : -tgt * B < 0 := by rw [neg_mul, neg_lt_zero]; exact mul_pos ht hB
  simp only [tbmEvent, hv, h1, h2, Ext.scale, Int.cast_zero, Int.toNat_natCast]
  rw [if_neg (by omega), tbmLoop_zero _ _ _ _ _ _ _ hu hl]
  have h3 : tbmLabel true p.minRet (0 : K) = if p.minRet = 0 then 1 else 0 := by
    simp only [tbmLabel, if_true, ge_iff_le]
    by_cases h : p.minRet = 0
    · rw [if_pos h, if_pos (le_of_eq h)]
    · rw [if_neg h, if_neg (fun h' => h (le_antisymm h' hm))]
  simp only [Option.getD_none, h3]
  congr 1
  simp [tbmRatio, Ext.valid, ht.ne', hB.ne']

example : tbmEvent (⟨.fin 1, .fin 1, some 25, 0, 0⟩ : TbmParams ℚ) [0, 10, 20, 200] [0, 1, 5, 9] true 0 2 0 =
    ⟨1, some 2, some 0, some 0⟩ := by decide +kernel

/-- C106: meta labels against barriers.  An event that ends at its stop-loss level is labelled 0.  An event that ends at its
take-profit level is labelled 1 if that level reaches `min_ret`, which the choice of events guarantees when the upper
multiplier is not the smaller one. -/
theorem C106_meta_label (p : TbmParams K) (hm : 0 ≤ p.minRet) {ts : List Int} (hs : ts.Pairwise (· ≤ ·)) (logc : List K)
    {i0 : Nat} (hi : i0 < ts.length) (tgt T B : K) (side : Int) (hv : ∀ x, p.vertical = some x → 0 < x) (ht : 0 < tgt) (hB : 0 < B)
    (hsel : p.minRet ≤ |tgt| * max B T) (r : K) (hr : (tbmEvent p ts logc true i0 tgt side).ret = some r) :
    (r ≤ -tgt * B → (tbmEvent p ts logc true i0 tgt side).label = 0) ∧
    (tgt * T ≤ r → B ≤ T → (tbmEvent p ts logc true i0 tgt side).label = 1) := by
  obtain ⟨t1, ⟨hv1, -, -⟩, h1, h2⟩ := C24_first_touch_partial p hs logc true hi tgt side hv
  rcases Nat.eq_or_lt_of_le hv1 with h | h
  · rw [h1 h.symm] at hr; cases hr
  · obtain ⟨touch, q, ratio, he, -⟩ := h2 h
    rw [he] at hr ⊢
    simp only [Option.some.injEq] at hr
    subst hr
    simp only [if_true]
    constructor
    · intro h3
      have := mul_pos ht hB
      rw [if_neg (by rw [not_le]; linarith)]
    · intro h3 h4
      rw [max_eq_right h4, abs_of_pos ht] at hsel
      rw [if_pos (le_trans hsel h3)]

example : tbmEvent (⟨.fin 1, .fin 1, some 100, 0, 1⟩ : TbmParams ℚ) [0, 10, 20, 200] [0, 1, 5, 9] true 0 2 1 =
    ⟨1, some 2, some 5, some 1⟩ := by decide +kernel

/-- C106 fails when the upper multiplier is the smaller one: the event qualifies because of the lower multiplier, touches its
take-profit level first, and the meta label is 0 although the documentation (`label/kit.py:66-72`) says 1. -/
theorem C106_take_profit_labelled_zero :
    targetOk (Ext.npMax (.fin 3) (.fin 1)) 2 (some (1 : ℚ)) = true ∧
    tbmEvent (⟨.fin 3, .fin 1, some 100, 0, 2⟩ : TbmParams ℚ) [0, 10, 20, 200] [0, 1, -5, 9] true 0 1 1 =
      ⟨0, some 1, some 1, some 1⟩ := by decide +kernel

/-- C106: an `event_idx` column replaces the search for the event's trade.  If it holds the positions that the search would
find, nothing changes. -/
theorem C106_event_idx (log : K → K) (o : TbmObj K) (f : EventRow K → Nat) (ts : List Int) (close : List K)
    (hf : ∀ r ∈ o.orig, f r = searchLeft ts r.ts) :
    (tbmCompute log { o with idx := some f } ts close).2 = (tbmCompute log { o with idx := none } ts close).2 ∧
    (tbmCompute log { o with idx := some f } ts close).1.rowsOut = (tbmCompute log { o with idx := none } ts close).1.rowsOut ∧
    (tbmCompute log { o with idx := some f } ts close).1.feats = (tbmCompute log { o with idx := none } ts close).1.feats := by
  unfold tbmCompute
  cases ts.getLast? with
  | none => simp
  | some l =>
    have he : (dropTrailing o.vertical l o.orig).map (tbmIndex { o with idx := some f } ts) =
        (dropTrailing o.vertical l o.orig).map (tbmIndex { o with idx := none } ts) := by
      apply List.map_congr_left
      intro r hr
      exact hf r (List.mem_of_mem_filter hr)
    simp only [he]
    split <;> simp

/-- C106 fails for an `event_idx` column made for other trades: when older trades are put in front of the data, the stored
positions point before the events, and the labels are those of the wrong moments, without an error. -/
theorem C106_stale_event_idx :
    let o := { tbmDemo false 1 with idx := some (fun r => searchLeft [0, 10, 20, 30] r.ts) }
    (tbmLabels (tbmCompute id o [0, 10, 20, 30] [5, 6, 9, 1]).1).toOption = some [1, 1] ∧
    (tbmLabels (tbmCompute id o [-20, -10, 0, 10, 20, 30] [9, 7, 5, 6, 9, 1]).1).toOption = some [-1, -1] ∧
    (tbmLabels (tbmCompute id { o with idx := none } [-20, -10, 0, 10, 20, 30] [9, 7, 5, 6, 9, 1]).1).toOption =
      some [1, 1] := by
  decide +kernel

/-- C106: labels and weights together.  Let the trades be ordered, each labelled event have a trade after its own within the
vertical barrier, and fewer than 32768 events be labelled.  Then the weights have one row per label, with the same times in
the same order; every average uniqueness lies in (0, 1]; and every return attribution is not negative. -/
theorem C106_weights (log : K → K) (o : TbmObj K) (hm : 0 ≤ o.minRet) {ts : List Int} (hs : ts.Pairwise (· ≤ ·)) (close : List K)
    (hok : (tbmCompute log o ts close).2 = none)
    (hev : ∀ r ∈ (tbmCompute log o ts close).1.feats, tbmIndex o ts r < ts.length ∧
      ∃ j, tbmIndex o ts r < j ∧ j < ts.length ∧ ts.getD j 0 ≤ ts.getD (tbmIndex o ts r) 0 + o.vertical)
    (hn : (tbmCompute log o ts close).1.feats.length < 32768) :
    ∃ w, tbmWeights log (tbmCompute log o ts close).1 ts close false = .ok w ∧
      w.map (·.1) = (tbmCompute log o ts close).1.feats.map (·.ts) ∧
      ∀ q ∈ w, (∃ u, q.2.1 = some u ∧ 0 < u ∧ u ≤ 1) ∧ 0 ≤ q.2.2 := by
  obtain ⟨hlen, hvert, l, hl, -⟩ := (C106_compute log o hm ts close).1.mp hok
  have hst := (C106_compute log o hm ts close).2 hok l hl
  rw [hst] at hev hn ⊢
  simp only at hev hn ⊢
  generalize o.orig.filter (fun r => decide (r.ts + o.vertical ≤ l)) = x at hev hn ⊢
  have hspan : ∀ r ∈ x, ∃ t, (tbmRow log o ts close r).out.touch = some t ∧ tbmIndex o ts r ≤ t ∧ t < ts.length := by
    intro r hr
    obtain ⟨hi, j, hj1, hj2, hj3⟩ := hev r hr
    obtain ⟨t1, ⟨hv1, hv2, hv3⟩, -, h2⟩ := C24_first_touch_partial
      (⟨o.bottom, o.top, some o.vertical, o.minClose, o.minRet⟩ : TbmParams K) hs (close.map log) o.isMeta hi
      (r.target.getD 0) (if o.isMeta then castInt8 r.side else 1) (fun v hv => by cases hv; exact hvert)
    have hlt : j ≤ t1 := (hv3 j hj2).mpr hj3
    obtain ⟨touch, q, ratio, he, hcase⟩ := h2 (by omega)
    refine ⟨touch, by simp only [tbmRow, he], ?_⟩
    rcases hcase with hf | ⟨-, h3, -⟩
    · have := hf.1
      exact ⟨by have := this.1; omega, by have := this.2.1; omega⟩
    · omega
  have hspans : ∀ s ∈ (x.map (tbmRow log o ts close)).map (fun r => (r.eventIdx, r.out.touch.getD 0)), s.1 ≤ s.2 ∧ s.2 < ts.length := by
    intro s hs'
    rw [List.map_map, List.mem_map] at hs'
    obtain ⟨r, hr, rfl⟩ := hs'
    obtain ⟨t, ht, h1, h2⟩ := hspan r hr
    simp only [Function.comp_apply, ht, Option.getD_some]
    exact ⟨h1, h2⟩
  have hraw := C28_raw log ((x.map (tbmRow log o ts close)).map (fun r => (r.eventIdx, r.out.touch.getD 0))) close
    (averageUniqueness (K := K) ts.length ((x.map (tbmRow log o ts close)).map (fun r => (r.eventIdx, r.out.touch.getD 0)))).2
    (fun s hs' => hlen ▸ (hspans s hs').2)
  simp only [tbmWeights, hraw]
  refine ⟨_, rfl, ?_, ?_⟩
  · apply List.ext_getElem
    · simp [averageUniqueness]
    · intro i h1 h2
      simp [tbmRow]
  · intro q hq
    obtain ⟨i, hi, rfl⟩ := List.getElem_of_mem hq
    have hix : i < x.length := by simp [averageUniqueness] at hi; exact hi
    rw [List.getElem_zipWith, List.getElem_zip]
    simp only
    refine ⟨?_, ?_⟩
    · obtain ⟨u, h1, h2, h3, -⟩ := C27_range_partial (K := K) (by simpa using hn) hspans i (by simpa using hix)
      refine ⟨u, ?_, h2, h3⟩
      rw [List.getElem?_eq_some_iff] at h1
      exact h1.2
    · rw [List.getElem_map]
      exact abs_nonneg _

example : (tbmWeights id (tbmCompute id (tbmDemo false 1) [0, 10, 20, 30] [5, 6, 9, 1]).1 [0, 10, 20, 30] [5, 6, 9, 1]
    false).toOption = some [(0, some (2 / 3), 27 / 20), (10, some (1 / 2), 27 / 20)] := by decide +kernel

end FinML

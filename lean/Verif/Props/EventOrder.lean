/-
C169: labels, sample weights and the order in which the events are given.  `finmlkit/label/weights.py`, `finmlkit/label/tbm.py`, `finmlkit/label/kit.py`.
-/
import Verif.Props.Weights

set_option linter.unusedSectionVars false

namespace FinML

variable {K : Type} [Field K] [LinearOrder K] [IsStrictOrderedRing K]

/-! ## Helpers -/

theorem wrap16_step_comm (s t : Nat × Nat) (c : List Int) :
    (c.mapIdx (fun i x => if s.1 ≤ i ∧ i ≤ s.2 then wrap16 (x + 1) else x)).mapIdx
        (fun i x => if t.1 ≤ i ∧ i ≤ t.2 then wrap16 (x + 1) else x) =
      (c.mapIdx (fun i x => if t.1 ≤ i ∧ i ≤ t.2 then wrap16 (x + 1) else x)).mapIdx
        (fun i x => if s.1 ≤ i ∧ i ≤ s.2 then wrap16 (x + 1) else x) := by
  rw [List.mapIdx_mapIdx, List.mapIdx_mapIdx]
  congr 1
  funext i x
  simp only [Function.comp]
  by_cases h1 : s.1 ≤ i ∧ i ≤ s.2 <;> by_cases h2 : t.1 ≤ i ∧ i ≤ t.2 <;> simp only [h1, h2, if_true, if_false, and_self]

theorem dedup_perm_sort {l l' : List Int} (h : List.Perm l' l) : uniqueLabels l' = uniqueLabels l := by
  unfold uniqueLabels
  exact List.Perm.eq_of_pairwise (le := fun a b : Int => a ≤ b) (fun a b _ _ x y => le_antisymm x y)
    (List.pairwise_insertionSort (· ≤ ·) l'.dedup)
    (List.pairwise_insertionSort (· ≤ ·) l.dedup)
    (((List.perm_insertionSort _ _).trans h.dedup).trans (List.perm_insertionSort _ _).symm)

theorem zip_unzip_pairs (ps : List (Int × K)) : (ps.map (·.1)).zip (ps.map (·.2)) = ps := by
  induction ps with
  | nil => rfl
  | cons p ps ih => simp only [List.map_cons, List.zip_cons_cons, ih]

theorem zipWith_pairs {β : Type} (f : Int → K → β) (ps : List (Int × K)) :
    List.zipWith f (ps.map (·.1)) (ps.map (·.2)) = ps.map (fun p => f p.1 p.2) := by
  induction ps with
  | nil => rfl
  | cons p ps ih => simp only [List.map_cons, List.zipWith_cons_cons, ih]

/-! ## C169 -/

/-- **C169 (concurrency).** The number of labels in progress at each bar does not depend on the order of the events,
even where the 16-bit counter wraps around. -/
theorem C169_concurrency (n : Nat) (spans spans' : List (Nat × Nat)) (h : List.Perm spans' spans) :
    concurrency n spans' = concurrency n spans := by
  unfold concurrency
  exact h.foldl_eq' (fun x _ y _ z => wrap16_step_comm x y z) _

/-- **C169 (uniqueness).** The uniqueness of an event is a function of the event for every order of the events. -/
theorem C169_uniqueness (n : Nat) (spans : List (Nat × Nat)) :
    ∃ g : Nat × Nat → Option K, ∀ spans', List.Perm spans' spans →
      averageUniqueness n spans' = (spans'.map g, concurrency n spans) := by
  refine ⟨fun s => npMean ((spanSlice (concurrency n spans) s).map (fun (x : Int) => 1 / (x : K))), ?_⟩
  intro spans' h
  unfold averageUniqueness
  simp only [C169_concurrency n spans spans' h]

/-- **C169 (return attribution).** So is its attributed return, normalised or not, and whether the normalisation
fails does not depend on the order. -/
theorem C169_attribution (log : K → K) (spans : List (Nat × Nat)) (close : List K) (conc : List Int) (normalize : Bool) :
    (∃ e, ∀ spans', List.Perm spans' spans → returnAttribution log spans' close conc normalize = .error e) ∨
    ∃ g : Nat × Nat → K, ∀ spans', List.Perm spans' spans → returnAttribution log spans' close conc normalize = .ok (spans'.map g) := by
  have hs : ∀ spans', List.Perm spans' spans → (spans'.map (fun s => |attrSum (logReturns log close) conc s|)).sum =
      (spans.map (fun s => |attrSum (logReturns log close) conc s|)).sum := fun spans' h => (h.map _).sum_eq
  unfold returnAttribution
  cases normalize with
  | false => exact Or.inr ⟨fun s => |attrSum (logReturns log close) conc s|, fun spans' _ => by simp only [Bool.false_eq_true, if_false]⟩
  | true =>
    simp only [if_true]
    by_cases h0 : (spans.map (fun s => |attrSum (logReturns log close) conc s|)).sum ≤ 0
    · exact Or.inl ⟨_, fun spans' h => by rw [hs spans' h, if_pos h0]⟩
    · refine Or.inr ⟨fun s => |attrSum (logReturns log close) conc s| *
        ((spans.length : K) / (spans.map (fun s => |attrSum (logReturns log close) conc s|)).sum), fun spans' h => ?_⟩
      rw [hs spans' h, if_neg h0, h.length_eq, List.map_map]
      rfl

example : List.Perm [(1, 3), (0, 1)] [(0, 1), (1, 3)] ∧ concurrency 4 [(0, 1), (1, 3)] = [1, 2, 1, 1] ∧
    concurrency 4 [(1, 3), (0, 1)] = [1, 2, 1, 1] ∧
    (averageUniqueness 4 [(0, 1), (1, 3)] : List (Option ℚ) × List Int).1 = [some (3 / 4), some (5 / 6)] ∧
    (averageUniqueness 4 [(1, 3), (0, 1)] : List (Option ℚ) × List Int).1 = [some (5 / 6), some (3 / 4)] ∧
    returnAttribution (fun x : ℚ => x - 1) [(0, 1), (1, 3)] [1, 2, 3, 6] [1, 2, 1, 1] true = .ok [2 / 5, 8 / 5] ∧
    returnAttribution (fun x : ℚ => x - 1) [(1, 3), (0, 1)] [1, 2, 3, 6] [1, 2, 1, 1] true = .ok [8 / 5, 2 / 5] := by
  decide +kernel

/-- **C169 (class balance).** Classes, class weights and class totals do not depend on the order of the samples, and the
balanced weight of a sample is a function of its label and base weight for every order. -/
theorem C169_class_balance (ps : List (Int × K)) :
    ∃ g : Int × K → K, ∀ ps', List.Perm ps' ps →
      classBalance (ps'.map (·.1)) (ps'.map (·.2)) =
        ((classBalance (ps.map (·.1)) (ps.map (·.2))).1, (classBalance (ps.map (·.1)) (ps.map (·.2))).2.1,
          (classBalance (ps.map (·.1)) (ps.map (·.2))).2.2.1, ps'.map g) := by
  refine ⟨fun p => p.2 * (classBalance (ps.map (·.1)) (ps.map (·.2))).2.1.getD
    (searchLeft (uniqueLabels (ps.map (·.1))) p.1) 0, ?_⟩
  intro ps' h
  have h1 : uniqueLabels (ps'.map (·.1)) = uniqueLabels (ps.map (·.1)) := dedup_perm_sort (h.map _)
  have h2 : classSums (uniqueLabels (ps.map (·.1))) (ps'.map (·.1)) (ps'.map (·.2)) =
      classSums (uniqueLabels (ps.map (·.1))) (ps.map (·.1)) (ps.map (·.2)) := by
    unfold classSums
    apply List.map_congr_left
    intro c _
    rw [zip_unzip_pairs, zip_unzip_pairs]
    exact ((h.filter _).map _).sum_eq
  unfold classBalance
  simp only [h1, h2, zipWith_pairs]

example : classBalance [1, -1, 1] [2, 1, (1 : ℚ)] = ([-1, 1], [2, 2 / 3], [1, 3], [4 / 3, 2, 2 / 3]) ∧
    classBalance [-1, 1, 1] [1, 1, (2 : ℚ)] = ([-1, 1], [2, 2 / 3], [1, 3], [2, 2 / 3, 4 / 3]) := by decide +kernel

/-- **C169 (time decay).** The decay weight at a position depends on the order only through which events come up to it:
reordering the events up to the position, or those after it, leaves the weight there. -/
theorem C169_time_decay (u u' w w' : List K) (lw : K) (k : Nat) (h : timeDecay u lw = .ok w) (h' : timeDecay u' lw = .ok w')
    (hk : k < u.length) (hu : List.Perm u' u) (hp : List.Perm (u'.take (k + 1)) (u.take (k + 1))) :
    w'[k]? = w[k]? := by
  have hne : u ≠ [] := by rintro rfl; simp at hk
  have ht : (cumsumFrom 0 u').getLastD 0 = (cumsumFrom 0 u).getLastD 0 := by
    rw [cumsum_getLastD 0 u hne, cumsum_getLastD 0 u' (by rintro rfl; exact hne hu.nil_eq.symm), hu.sum_eq]
  have hk : (cumsumFrom 0 u')[k]? = (cumsumFrom 0 u)[k]? := by
    rw [cumsum_get 0 u k hk, cumsum_get 0 u' k (by rw [hu.length_eq]; exact hk), hp.sum_eq]
  unfold timeDecay at h h'
  by_cases h1 : ¬ (-1 ≤ lw ∧ lw ≤ 1)
  · rw [if_pos h1] at h; cases h
  rw [if_neg h1] at h h'
  simp only [ht] at h h'
  by_cases h2 : (cumsumFrom 0 u).getLastD 0 = 0
  · rw [if_pos h2] at h; cases h
  rw [if_neg h2] at h h'
  by_cases h3 : lw < 0 ∧ (lw + 1) * (cumsumFrom 0 u).getLastD 0 = 0
  · rw [if_pos h3] at h; cases h
  rw [if_neg h3] at h h'
  injection h with h
  injection h' with h'
  subst h h'
  split
  · rw [List.getElem?_map, List.getElem?_map, List.getElem?_map, List.getElem?_map, hk]
  · rw [List.getElem?_map, List.getElem?_map, hk]

/-- **C169 (time decay is not symmetric).** Events given in another order get other decay weights: the weight is by
position, not by time, so the newest event has weight 1 only if it comes last. -/
theorem C169_time_decay_not_symmetric :
    timeDecay [1, (3 : ℚ)] 0 = .ok [1 / 4, 1] ∧ timeDecay [3, (1 : ℚ)] 0 = .ok [3 / 4, 1] := by decide +kernel

example : timeDecay [1, 3, (4 : ℚ)] (1 / 2) = .ok [9 / 16, 3 / 4, 1] ∧ timeDecay [3, 1, (4 : ℚ)] (1 / 2) = .ok [11 / 16, 3 / 4, 1] := by
  decide +kernel

/-- **C169 (labels).** Every event is labelled by itself: whether the call fails does not depend on the order, and the
label, touch, return and barrier ratio of an event are a function of the event, its target and its side for every order. -/
theorem C169_labels (log : K → K) (p : TbmParams K) (ts : List Int) (close : List K) (es : List (Nat × K × Int)) (isMeta : Bool) :
    let run : List (Nat × K × Int) → Except String (List (TbmOut K)) := fun es =>
      tripleBarrier log p ts close (es.map (·.1)) (es.map (·.2.1)) (if isMeta then some (es.map (·.2.2)) else none)
    (∃ e, ∀ es', List.Perm es' es → run es' = .error e) ∨
    ∃ g : Nat × K × Int → TbmOut K, ∀ es', List.Perm es' es → run es' = .ok (es'.map g) := by
  intro run
  have z1 : ∀ (f : Nat → K → TbmOut K) (l : List (Nat × K × Int)), List.zipWith f (l.map (·.1)) (l.map (·.2.1)) = l.map (fun x => f x.1 x.2.1) := by
    intro f l
    induction l with
    | nil => rfl
    | cons x l ih => simp only [List.map_cons, List.zipWith_cons_cons, ih]
  have z2 : ∀ (f : Nat → K × Int → TbmOut K) (l : List (Nat × K × Int)),
      List.zipWith f (l.map (·.1)) ((l.map (·.2.1)).zip (l.map (·.2.2))) = l.map (fun x => f x.1 x.2) := by
    intro f l
    induction l with
    | nil => rfl
    | cons x l ih => simp only [List.map_cons, List.zip_cons_cons, List.zipWith_cons_cons, ih]
  simp only [run]
  unfold tripleBarrier
  by_cases c1 : verticalBad p.vertical = true
  · exact Or.inl ⟨_, fun es' _ => by rw [if_pos c1]⟩
  by_cases c2 : p.minRet < 0
  · exact Or.inl ⟨_, fun es' _ => by rw [if_neg c1, if_pos c2]⟩
  by_cases c3 : ts.length ≠ close.length
  · exact Or.inl ⟨_, fun es' _ => by rw [if_neg c1, if_neg c2, if_pos c3]⟩
  have c4 : ∀ l : List (Nat × K × Int), ¬ (l.map (·.1)).length ≠ (l.map (·.2.1)).length := by
    intro l; rw [List.length_map, List.length_map]; exact fun h => h rfl
  have c6 : ∀ l : List (Nat × K × Int), ¬ (l.map (·.1)).length ≠ (l.map (·.2.2)).length := by
    intro l; rw [List.length_map, List.length_map]; exact fun h => h rfl
  by_cases c5 : es = []
  · refine Or.inl ⟨"The event_idxs array must not be empty.", fun es' h => ?_⟩
    subst c5
    rw [h.eq_nil, if_neg c1, if_neg c2, if_neg c3, if_neg (c4 []), if_pos (by rfl)]
  have c7 : ∀ es', List.Perm es' es → ¬ es'.map (·.1) = [] := by
    intro es' h e
    rw [List.map_eq_nil_iff] at e
    subst e
    exact c5 h.nil_eq.symm
  cases isMeta with
  | false =>
    refine Or.inr ⟨fun x => tbmEvent p ts (close.map log) false x.1 x.2.1 1, fun es' h => ?_⟩
    rw [if_neg c1, if_neg c2, if_neg c3, if_neg (c4 es'), if_neg (c7 es' h)]
    simp only [Bool.false_eq_true, if_false, z1]
  | true =>
    refine Or.inr ⟨fun x => tbmEvent p ts (close.map log) true x.1 x.2.1 x.2.2, fun es' h => ?_⟩
    rw [if_neg c1, if_neg c2, if_neg c3, if_neg (c4 es'), if_neg (c7 es' h)]
    simp only [if_true]
    rw [if_neg (c6 es'), z2]

example : (tripleBarrier (fun x : ℚ => x) ⟨.fin 1, .fin 1, some 10000000000, 0, 0⟩ [0, 1000000000, 2000000000, 3000000000] [1, 2, 3, 1] [0, 2] [1, 1]
      none).map (List.map (·.label)) = .ok [1, -1] ∧
    (tripleBarrier (fun x : ℚ => x) ⟨.fin 1, .fin 1, some 10000000000, 0, 0⟩ [0, 1000000000, 2000000000, 3000000000] [1, 2, 3, 1] [2, 0] [1, 1]
      none).map (List.map (·.label)) = .ok [-1, 1] := by decide +kernel

/-- **C169 (final weights).** Without time decay (`last_weight = 1`) the combined, normalised and balanced weight of a
sample is a function of its uniqueness, attribution, vertical-touch weight and label for every order of the samples. -/
theorem C169_final_weights (ss : List (K × K × K × Int)) (hu : (ss.map (·.1)).sum ≠ 0) :
    let run : List (K × K × K × Int) → Except String (List K) := fun ss =>
      finalWeights (ss.map (·.1)) 1 (some (ss.map (·.2.1))) (some (ss.map (·.2.2.1))) (some (ss.map (·.2.2.2)))
    (∃ e, ∀ ss', List.Perm ss' ss → run ss' = .error e) ∨
    ∃ g : K × K × K × Int → K, ∀ ss', List.Perm ss' ss → run ss' = .ok (ss'.map g) := by
  intro run
  have hd : ∀ ss' : List (K × K × K × Int), List.Perm ss' ss → timeDecay (ss'.map (·.1)) 1 = .ok (ss'.map (fun _ => 1)) := by
    intro ss' h
    obtain ⟨w, hw, hl, hg⟩ := C29_closed_form (u := ss'.map (·.1)) (lw := 1) (by linarith) (le_refl _)
      (by rw [(h.map _).sum_eq]; exact hu)
    rw [hw]
    congr 1
    apply List.ext_getElem?
    intro k
    by_cases hk : k < ss'.length
    · rw [hg k (by rw [List.length_map]; exact hk), if_pos (by linarith), List.getElem?_map, List.getElem?_eq_getElem hk]
      simp
    · rw [List.getElem?_eq_none (by rw [hl, List.length_map]; omega), List.getElem?_eq_none (by rw [List.length_map]; omega)]
  have hA : ∀ ss' : List (K × K × K × Int), List.Perm ss' ss → (ss'.map (·.2.1)).sum = (ss.map (·.2.1)).sum := fun _ h => (h.map _).sum_eq
  by_cases ha : (ss.map (·.2.1)).sum ≤ 0
  · refine Or.inl ⟨"Return attribution sum is zero or negative, cannot normalize.", fun ss' h => ?_⟩
    simp only [run, finalWeights, hd ss' h, hA ss' h, if_pos ha]
  set c : K × K × K × Int → K := fun s => s.2.1 * (ss.length : K) / (ss.map (·.2.1)).sum * s.2.2.1 with hc
  have hz : ∀ ss' : List (K × K × K × Int),
      List.zipWith (· * ·) (List.zipWith (· * ·) (ss'.map (fun _ => (1 : K)))
        ((ss'.map (·.2.1)).map (fun x => x * (ss.length : K) / (ss.map (·.2.1)).sum))) (ss'.map (·.2.2.1)) = ss'.map c := by
    intro ss'
    clear hd hA
    induction ss' with
    | nil => rfl
    | cons x l ih =>
      simp only [List.map_cons, List.zipWith_cons_cons, List.cons.injEq]
      exact ⟨by rw [hc]; ring, ih⟩
  by_cases hm : (ss.map c).sum / (ss.length : K) ≤ 0
  · refine Or.inl ⟨"Mean of combined weights is zero or negative, cannot normalize.", fun ss' h => ?_⟩
    simp only [run, finalWeights, hd ss' h, hA ss' h, if_neg ha, List.length_map, h.length_eq, hz ss', (h.map c).sum_eq, if_pos hm]
  · obtain ⟨g, hg⟩ := C169_class_balance (ss.map (fun s => (s.2.2.2, c s / ((ss.map c).sum / (ss.length : K)))))
    refine Or.inr ⟨fun s => g (s.2.2.2, c s / ((ss.map c).sum / (ss.length : K))), fun ss' h => ?_⟩
    have := hg _ (h.map (fun s => (s.2.2.2, c s / ((ss.map c).sum / (ss.length : K)))))
    simp only [List.map_map] at this
    simp only [run, finalWeights, hd ss' h, hA ss' h, if_neg ha, List.length_map, h.length_eq, hz ss', (h.map c).sum_eq, if_neg hm]
    rw [List.map_map]
    exact congrArg (fun x => Except.ok x.2.2.2) this

example : finalWeights [1, (1 / 2 : ℚ)] 1 (some [1, 3]) (some [1, 1]) (some [1, 0]) = .ok [1, 1] ∧
    finalWeights [1, 1 / 2, (1 / 2 : ℚ)] 1 (some [1, 3, 2]) (some [1, 1, 1]) (some [1, 0, 1]) = .ok [1 / 2, 3 / 2, 1] ∧
    finalWeights [1 / 2, 1, (1 / 2 : ℚ)] 1 (some [2, 1, 3]) (some [1, 1, 1]) (some [1, 1, 0]) = .ok [1, 1 / 2, 3 / 2] := by
  decide +kernel

end FinML

/-
C42: the parallel rolling structural-break test.  C58: the statistic itself.
-/
import Verif.Model.CusumTest
import Verif.Props.VolumeWindows

set_option linter.unusedSectionVars false

namespace FinML

variable {K : Type} [Field K] [LinearOrder K] [IsStrictOrderedRing K]

/-! ### The statistic only looks at its past -/

theorem sntStep_congr (lg sq : K → K) (y z : List K) (t : Nat) (sigma : K) (s : Snt K) (n : Nat)
    (ht : y.getD t 0 = z.getD t 0) (hn : y.getD n 0 = z.getD n 0) :
    sntStep lg sq y t sigma s n = sntStep lg sq z t sigma s n := by
  unfold sntStep
  rw [ht, hn]

theorem sntAt_congr (lg sq : K → K) (y z : List K) (t : Nat) (h : ∀ j, j ≤ t → y.getD j 0 = z.getD j 0) :
    sntAt lg sq y t = sntAt lg sq z t := by
  by_cases ht : t < 1
  · unfold sntAt compMaxSnt
    rw [if_pos (Or.inl ht), if_pos (Or.inl ht)]
  · have hc : cumSqDiff y (t - 1) = cumSqDiff z (t - 1) := by
      unfold cumSqDiff
      congr 1
      apply List.map_congr_left
      intro j hj
      rw [List.mem_range] at hj
      rw [h (j + 1) (by omega), h j (by omega)]
    unfold sntAt
    rw [hc]
    unfold compMaxSnt
    split
    · rfl
    · apply List.foldl_ext
      intro s n hn
      obtain ⟨k, hk, rfl⟩ := List.mem_map.mp hn
      rw [List.mem_range] at hk
      exact sntStep_congr lg sq y z t _ s (k + 1) (h t (le_refl _)) (h (k + 1) (by omega))

theorem sntAt_prefix (lg sq : K → K) (prices : List K) (t : Nat) (ht : t < prices.length) :
    sntAt lg sq (prices.map lg) t = cusumLast lg sq (prices.take (t + 1)) := by
  unfold cusumLast
  have hl : (prices.take (t + 1)).length - 1 = t := by rw [List.length_take]; omega
  rw [hl]
  apply sntAt_congr
  intro j hj
  rw [List.getD_eq_getElem _ _ (by rw [List.length_map]; omega),
    List.getD_eq_getElem _ _ (by rw [List.length_map, List.length_take]; omega), List.getElem_map, List.getElem_map,
    List.getElem_take]

/-! ### C42 -/

theorem mem_rollingIters (n w c : Nat) : c ∈ rollingIters n w ↔ w ≤ c ∧ c < n := by
  unfold rollingIters
  rw [List.mem_map]
  constructor
  · rintro ⟨k, hk, rfl⟩
    rw [List.mem_range] at hk
    omega
  · rintro ⟨h1, h2⟩
    exact ⟨c - w, List.mem_range.mpr (by omega), by omega⟩

theorem iterWrites_fst (lg sq : K → K) (prices : List K) (w : Nat) (dev : List (Option (Snt K))) (c : Nat) :
    (iterWrites lg sq prices w dev c).map Prod.fst = if c = w then List.range (w + 1) else [c] := by
  unfold iterWrites
  split
  · rw [List.map_map]
    have : (Prod.fst ∘ fun k => (k, dev.getD k none)) = id := by funext k; rfl
    rw [this, List.map_id]
  · rfl

/-- Different iterations of the parallel loop write disjoint sets of positions. -/
theorem C42_iterations_write_disjoint (lg sq : K → K) (prices : List K) (w : Nat) (dev : List (Option (Snt K)))
    (c d : Nat) (hc : c ∈ rollingIters prices.length w) (hd : d ∈ rollingIters prices.length w) (hne : c ≠ d) :
    ∀ i, i ∈ (iterWrites lg sq prices w dev c).map Prod.fst → i ∉ (iterWrites lg sq prices w dev d).map Prod.fst := by
  rw [mem_rollingIters] at hc hd
  intro i
  rw [iterWrites_fst, iterWrites_fst]
  split <;> split
  · omega
  · simp only [List.mem_range, List.mem_singleton]; omega
  · simp only [List.mem_range, List.mem_singleton]; omega
  · simp only [List.mem_singleton]; omega

example : (iterWrites (fun x : ℚ => x) (fun x => x) [1, 2, 3, 4, 5, 6] 3 [] 3).map Prod.fst = [0, 1, 2, 3] ∧
    (iterWrites (fun x : ℚ => x) (fun x => x) [1, 2, 3, 4, 5, 6] 3 [] 5).map Prod.fst = [5] := by decide +kernel

theorem rollingWrites_fst (lg sq : K → K) (prices : List K) (w : Nat) (dev : List (Option (Snt K)))
    (hw : w < prices.length) :
    (rollingWrites lg sq prices w dev).map Prod.fst = List.range prices.length := by
  unfold rollingWrites
  rw [List.map_flatMap]
  have e : (rollingIters prices.length w).flatMap (fun c => (iterWrites lg sq prices w dev c).map Prod.fst)
      = (rollingIters prices.length w).flatMap (fun c => if c = w then List.range (w + 1) else [c]) :=
    List.flatMap_congr (fun c _ => iterWrites_fst lg sq prices w dev c)
  rw [e]
  unfold rollingIters
  obtain ⟨k, hk⟩ : ∃ k, prices.length - w = k + 1 := ⟨prices.length - w - 1, by omega⟩
  have hn : prices.length = (w + 1) + k := by omega
  have hr : List.range (k + 1) = 0 :: (List.range k).map Nat.succ := List.range_succ_eq_map
  rw [hk, hr, List.map_cons, List.flatMap_cons, if_pos (by simp), hn, List.range_add (n := w + 1), List.map_map]
  congr 1
  rw [List.flatMap_map]
  have : (List.range k).flatMap (fun a => if ((fun x => w + x) ∘ Nat.succ) a = w then List.range (w + 1)
      else [((fun x => w + x) ∘ Nat.succ) a]) = (List.range k).flatMap (fun a => [w + 1 + a]) := by
    apply List.flatMap_congr
    intro a _
    simp only [Function.comp]
    rw [if_neg (by omega)]
    congr 1; omega
  rw [this]
  induction List.range k with
  | nil => rfl
  | cons a t ih => rw [List.flatMap_cons, ih]; rfl

/-- Together the iterations write every position of the output exactly once. -/
theorem C42_every_position_once (lg sq : K → K) (prices : List K) (w : Nat) (dev : List (Option (Snt K)))
    (hw : w < prices.length) (i : Nat) (hi : i < prices.length) :
    ((rollingWrites lg sq prices w dev).map Prod.fst).count i = 1 := by
  rw [rollingWrites_fst lg sq prices w dev hw]
  exact List.count_eq_one_of_mem List.nodup_range (List.mem_range.mpr hi)

example : 2 < ([1, 2, 4, 8] : List ℚ).length ∧ (rollingWrites id id ([1, 2, 4, 8] : List ℚ) 2 []).map Prod.fst = [0, 1, 2, 3] := by
  decide +kernel

/-- Writes to distinct positions commute: every order of the element writes gives the same array. -/
theorem writeAll_perm {A : Type} (a : List A) (ws vs : List (Nat × A)) (hp : ws.Perm vs)
    (hnd : (ws.map Prod.fst).Nodup) : writeAll a ws = writeAll a vs := by
  have hnd' : (vs.map Prod.fst).Nodup := (hp.map Prod.fst).nodup_iff.mp hnd
  by_cases h : ∀ w ∈ ws, w.1 < a.length
  · obtain ⟨b, hb⟩ := (writeAll_isSome_iff a ws).mpr h
    obtain ⟨c, hc⟩ := (writeAll_isSome_iff a vs).mpr (fun w hw => h w (hp.mem_iff.mpr hw))
    rw [hb, hc]
    congr 1
    apply List.ext_getElem?
    intro k
    obtain ⟨b1, b2⟩ := writeAll_get a b ws hb hnd
    obtain ⟨c1, c2⟩ := writeAll_get a c vs hc hnd'
    by_cases hk : k ∈ ws.map Prod.fst
    · obtain ⟨w, hw, rfl⟩ := List.mem_map.mp hk
      rw [b1 w hw, c1 w (hp.mem_iff.mp hw)]
    · have hk' : k ∉ vs.map Prod.fst := fun h => hk ((hp.map Prod.fst).mem_iff.mpr h)
      rw [b2 k hk, c2 k hk']
  · have h1 : writeAll a ws = none := by
      cases hb : writeAll a ws with
      | none => rfl
      | some b => exact absurd ((writeAll_isSome_iff a ws).mp ⟨b, hb⟩) h
    have h2 : writeAll a vs = none := by
      cases hb : writeAll a vs with
      | none => rfl
      | some b => exact absurd (fun w hw => (writeAll_isSome_iff a vs).mp ⟨b, hb⟩ w (hp.mem_iff.mp hw)) h
    rw [h1, h2]

/-- Race freedom: any interleaving of the element writes of all iterations leaves the same arrays. -/
theorem C42_schedule_independent (lg sq : K → K) (prices : List K) (w : Nat) (dev : List (Option (Snt K)))
    (hw : w < prices.length) (sched : List (Nat × Option (Snt K)))
    (hp : sched.Perm (rollingWrites lg sq prices w dev)) :
    writeAll (List.replicate prices.length none) sched
      = writeAll (List.replicate prices.length none) (rollingWrites lg sq prices w dev) := by
  symm
  apply writeAll_perm _ _ _ hp.symm
  rw [rollingWrites_fst lg sq prices w dev hw]
  exact List.nodup_range

example : (rollingWrites id id ([1, 2, 4, 8] : List ℚ) 2 []).reverse.Perm (rollingWrites id id ([1, 2, 4, 8] : List ℚ) 2 []) := List.reverse_perm _

/-- `window_size` is raised to `warmup + 2`. -/
theorem effWindow_eq (window warmup : Nat) : effWindow window warmup = max window (warmup + 2) := by
  unfold effWindow; split <;> omega

/-- The rolling test equals the sequential windowed test: position `i ≥ warmup` holds the statistic of the last
observation of the window of at most `max(window, warmup+2) + 1` prices that ends at `i`; earlier positions are NaN. -/
theorem C42_rolling_is_windowed (lg sq : K → K) (prices : List K) (window warmup : Nat)
    (hpos : ∀ p ∈ prices, 0 < p) (hwu : 2 ≤ warmup) (hn : warmup + 2 ≤ prices.length) :
    ∃ out, cusumRolling lg sq prices window warmup = .ok out ∧ out.length = prices.length ∧
      ∀ i, i < prices.length → out[i]? = some
        (if i < warmup then none
         else some (cusumLast lg sq ((prices.take (i + 1)).drop (i - max window (warmup + 2))))) := by
  unfold cusumRolling
  rw [if_neg (by
    simp only [List.any_eq_true, decide_eq_true_eq, not_exists, not_and]
    intro p hp; exact not_le.mpr (hpos p hp))]
  simp only []
  rw [if_neg (by omega), effWindow_eq]
  generalize hW : max window (warmup + 2) = w
  have hww : warmup + 2 ≤ w := by omega
  by_cases hnw : prices.length > w
  · rw [if_pos hnw]
    have hlen : (prices.take (w + 1)).length = w + 1 := by rw [List.length_take]; omega
    unfold cusumDeveloping
    rw [if_neg (by omega)]
    simp only []
    rw [hlen]
    generalize hdev : tabulate (w + 1) (fun t => if t < warmup then none
      else some (sntAt lg sq (List.map lg (prices.take (w + 1))) t)) = dev
    have hnd : ((rollingWrites lg sq prices w dev).map Prod.fst).Nodup := by
      rw [rollingWrites_fst lg sq prices w dev hnw]; exact List.nodup_range
    have hin : ∀ x ∈ rollingWrites lg sq prices w dev, x.1 < (List.replicate prices.length
        (none : Option (Snt K))).length := by
      intro x hx
      have : x.1 ∈ (rollingWrites lg sq prices w dev).map Prod.fst := List.mem_map_of_mem hx
      rw [rollingWrites_fst lg sq prices w dev hnw, List.mem_range] at this
      rw [List.length_replicate]; exact this
    obtain ⟨out, hout⟩ := (writeAll_isSome_iff _ _).mpr hin
    rw [hout]
    refine ⟨out, rfl, ?_, ?_⟩
    · rw [writeAll_length _ _ _ hout, List.length_replicate]
    · intro i hi
      obtain ⟨g1, _⟩ := writeAll_get _ _ _ hout hnd
      by_cases hiw : i ≤ w
      · have hmem : (i, dev.getD i none) ∈ rollingWrites lg sq prices w dev := by
          unfold rollingWrites
          rw [List.mem_flatMap]
          refine ⟨w, (mem_rollingIters _ _ _).mpr ⟨le_refl _, hnw⟩, ?_⟩
          unfold iterWrites
          rw [if_pos rfl, List.mem_map]
          exact ⟨i, List.mem_range.mpr (by omega), rfl⟩
        have hd : dev.getD i none = if i < warmup then none else some (sntAt lg sq (List.map lg (prices.take (w + 1))) i) := by
          rw [← hdev, List.getD_eq_getElem?_getD, tabulate_get?, if_pos (by omega)]; rfl
        rw [g1 _ hmem, hd]
        by_cases hiu : i < warmup
        · rw [if_pos hiu, if_pos hiu]
        · rw [if_neg hiu, if_neg hiu, sntAt_prefix _ _ _ _ (by omega), List.take_take]
          have e1 : min (i + 1) (w + 1) = i + 1 := by omega
          have e2 : i - w = 0 := by omega
          rw [e1, e2, List.drop_zero]
      · have hmem : (i, some (cusumLast lg sq ((prices.take (i + 1)).drop (i - w)))) ∈ rollingWrites lg sq prices w dev := by
          unfold rollingWrites
          rw [List.mem_flatMap]
          refine ⟨i, (mem_rollingIters _ _ _).mpr ⟨by omega, hi⟩, ?_⟩
          unfold iterWrites
          rw [if_neg (by omega)]
          exact List.mem_singleton.mpr rfl
        rw [g1 _ hmem, if_neg (by omega)]
  · rw [if_neg hnw]
    unfold cusumDeveloping
    rw [if_neg (by omega)]
    refine ⟨_, rfl, length_tabulate _ _, ?_⟩
    intro i hi
    rw [tabulate_get?, if_pos hi]
    by_cases hiu : i < warmup
    · rw [if_pos hiu, if_pos hiu]
    · rw [if_neg hiu, if_neg hiu, sntAt_prefix _ _ _ _ hi]
      have e2 : i - w = 0 := by omega
      rw [e2, List.drop_zero]

example : ∃ out, cusumRolling (fun x : ℚ => x) (fun x => x) [1, 3, 2, 5, 1, 4] 4 2 = .ok out ∧ out.length = 6 ∧
    out[1]? = some none ∧ out[5]? ≠ some none := by
  refine ⟨_, rfl, ?_⟩
  decide +kernel

/-- The developing test fails exactly when index 1 is past the warm-up and inside the series. -/
theorem C42_developing_error_iff (lg sq : K → K) (prices : List K) (warmup : Nat) :
    (∃ e, cusumDeveloping lg sq prices warmup = .error e) ↔ warmup ≤ 1 ∧ 2 ≤ prices.length := by
  unfold cusumDeveloping
  split <;> rename_i h
  · exact ⟨fun _ => ⟨h.1, h.2⟩, fun _ => ⟨_, rfl⟩⟩
  · exact ⟨fun ⟨e, he⟩ => by simp at he, fun h' => absurd ⟨h'.1, h'.2⟩ h⟩

/-- Short series and bad prices. -/
theorem C42_edge_cases (lg sq : K → K) (prices : List K) (window warmup : Nat) :
    ((∃ p ∈ prices, p ≤ 0) → cusumRolling lg sq prices window warmup = .error "All close prices must be positive.") ∧
    ((∀ p ∈ prices, 0 < p) → prices.length < warmup + 2 →
      cusumRolling lg sq prices window warmup = .ok (List.replicate prices.length none)) := by
  constructor
  · rintro ⟨p, hp, h⟩
    unfold cusumRolling
    rw [if_pos (by rw [List.any_eq_true]; exact ⟨p, hp, by simpa using h⟩)]
  · intro hpos hn
    unfold cusumRolling
    rw [if_neg (by
      simp only [List.any_eq_true, decide_eq_true_eq, not_exists, not_and]
      intro p hp; exact not_le.mpr (hpos p hp))]
    simp only []
    rw [if_pos hn]

example : cusumRolling (fun x : ℚ => x) (fun x => x) [1, 0] 4 2 = .error "All close prices must be positive." := by
  decide +kernel

/-! ### C58: the statistic -/

/-- one-sided standardised departure from start index `n` (upwards) -/
def departUp (sq : K → K) (y : List K) (t : Nat) (sigma : K) (n : Nat) : K :=
  max 0 (y.getD t 0 - y.getD n 0) / (sigma * sq ((t - n : Nat) : K))

/-- one-sided standardised departure from start index `n` (downwards) -/
def departDown (sq : K → K) (y : List K) (t : Nat) (sigma : K) (n : Nat) : K :=
  max 0 (y.getD n 0 - y.getD t 0) / (sigma * sq ((t - n : Nat) : K))

/-- first strict maximiser of `f` over a list, with the value `c` recorded there -/
def FirstMax (f c : Nat → K) (ns : List Nat) (best crit : K) : Prop :=
  ∃ (pre post : List Nat) (m : Nat), ns = pre ++ m :: post ∧ best = f m ∧ crit = c m ∧
    (∀ n ∈ pre, f n < best) ∧ (∀ n ∈ post, f n ≤ best)

theorem neg_min_eq (a b : K) : -(min 0 (a - b)) = max 0 (b - a) := by
  rcases le_total 0 (a - b) with h | h
  · rw [min_eq_left h, max_eq_left (by linarith)]; ring
  · rw [min_eq_right h, max_eq_right (by linarith)]; ring

theorem foldl_runMax (f c : Nat → K) (ns : List Nat) (b0 c0 : K) (hpos : ∀ n ∈ ns, 0 ≤ f n) (hb : b0 < 0) :
    let r := ns.foldl (fun (s : K × K) n => if f n > s.1 then (f n, c n) else s) (b0, c0)
    (ns = [] ∧ r = (b0, c0)) ∨ FirstMax f c ns r.1 r.2 := by
  induction ns using List.reverseRecOn with
  | nil => left; exact ⟨rfl, rfl⟩
  | append_singleton ns m ih =>
    simp only []
    rw [List.foldl_append, List.foldl_cons, List.foldl_nil]
    right
    rcases ih (fun n hn => hpos n (List.mem_append_left _ hn)) with ⟨h1, h2⟩ | h
    · rw [h2]
      have : f m > b0 := lt_of_lt_of_le hb (hpos m (by simp))
      rw [if_pos this]
      subst h1
      exact ⟨[], [], m, rfl, rfl, rfl, by simp, by simp⟩
    · obtain ⟨pre, post, k, e1, e2, e3, e4, e5⟩ := h
      generalize ns.foldl (fun (s : K × K) n => if f n > s.1 then (f n, c n) else s) (b0, c0) = r at *
      by_cases hm : f m > r.1
      · rw [if_pos hm]
        refine ⟨ns, [], m, rfl, rfl, rfl, ?_, by simp⟩
        intro n hn
        rw [e1] at hn
        rcases List.mem_append.mp hn with hn | hn
        · exact lt_trans (e4 n hn) hm
        · rcases List.mem_cons.mp hn with rfl | hn
          · rw [← e2]; exact hm
          · exact lt_of_le_of_lt (e5 n hn) hm
      · rw [if_neg hm]
        refine ⟨pre, post ++ [m], k, by rw [e1]; simp, e2, e3, e4, ?_⟩
        intro n hn
        rcases List.mem_append.mp hn with hn | hn
        · exact e5 n hn
        · rw [List.mem_singleton.mp hn]; exact not_lt.mp hm

theorem sntFold_split (lg sq : K → K) (y : List K) (t : Nat) (sigma : K) (ns : List Nat) (s : Snt K) :
    let ok := ns.filter (fun n => decide (1 / 10 ^ 16 < sigma * sq ((t - n : Nat) : K)))
    let r := ns.foldl (sntStep lg sq y t sigma) s
    (r.up, r.critUp) = ok.foldl (fun (s : K × K) n => if departUp sq y t sigma n > s.1 then
        (departUp sq y t sigma n, sq (46 / 10 + lg ((t - n : Nat) : K))) else s) (s.up, s.critUp) ∧
    (r.down, r.critDown) = ok.foldl (fun (s : K × K) n => if departDown sq y t sigma n > s.1 then
        (departDown sq y t sigma n, sq (46 / 10 + lg ((t - n : Nat) : K))) else s) (s.down, s.critDown) := by
  induction ns generalizing s with
  | nil => exact ⟨rfl, rfl⟩
  | cons n t' ih =>
    simp only [List.foldl_cons]
    by_cases h : sigma * sq ((t - n : Nat) : K) ≤ 1 / 10 ^ 16
    · rw [List.filter_cons_of_neg (by simpa using h)]
      have : sntStep lg sq y t sigma s n = s := by
        unfold sntStep; simp only []; rw [if_pos h]
      rw [this]
      exact ih s
    · rw [List.filter_cons_of_pos (by simpa using h), List.foldl_cons, List.foldl_cons]
      have hstep : (((sntStep lg sq y t sigma s n).up, (sntStep lg sq y t sigma s n).critUp)
            = if departUp sq y t sigma n > s.up then (departUp sq y t sigma n, sq (46 / 10 + lg ((t - n : Nat) : K)))
              else (s.up, s.critUp)) ∧
          (((sntStep lg sq y t sigma s n).down, (sntStep lg sq y t sigma s n).critDown)
            = if departDown sq y t sigma n > s.down then (departDown sq y t sigma n, sq (46 / 10 + lg ((t - n : Nat) : K)))
              else (s.down, s.critDown)) := by
        unfold sntStep departUp departDown
        simp only []
        rw [if_neg h, neg_min_eq]
        by_cases h1 : max 0 (y.getD t 0 - y.getD n 0) / (sigma * sq ((t - n : Nat) : K)) > s.up
        · rw [if_pos h1, if_pos h1]
          simp only []
          by_cases h2 : max 0 (y.getD n 0 - y.getD t 0) / (sigma * sq ((t - n : Nat) : K)) > s.down
          · rw [if_pos h2, if_pos h2]; exact ⟨rfl, rfl⟩
          · rw [if_neg h2, if_neg h2]; exact ⟨rfl, rfl⟩
        · rw [if_neg h1, if_neg h1]
          by_cases h2 : max 0 (y.getD n 0 - y.getD t 0) / (sigma * sq ((t - n : Nat) : K)) > s.down
          · rw [if_pos h2, if_pos h2]; exact ⟨rfl, rfl⟩
          · rw [if_neg h2, if_neg h2]; exact ⟨rfl, rfl⟩
      rw [← hstep.1, ← hstep.2]
      exact ih _

/-- Among the start indices `1, …, t-2` with usable denominator, the statistic is the largest one-sided standardised
departure and the critical value belongs to its first maximiser; without such an index the initial values remain.
Partial: the published test takes the supremum over all start indices, here index 0 and index `t-1` are skipped. -/
theorem C58_statistic_is_maximum_partial (lg sq : K → K) (y : List K) (t : Nat) (sigma : K) (hs : 0 < sigma) :
    let ns := (((List.range (t - 2)).map (· + 1)).filter
      (fun n => decide (1 / 10 ^ 16 < sigma * sq ((t - n : Nat) : K))))
    let crit := fun n : Nat => sq (46 / 10 + lg ((t - n : Nat) : K))
    let r := compMaxSnt lg sq y t sigma
    (ns = [] ∧ r = sntInit) ∨
      (FirstMax (departUp sq y t sigma) crit ns r.up r.critUp ∧
       FirstMax (departDown sq y t sigma) crit ns r.down r.critDown) := by
  intro ns crit r
  by_cases ht : t < 1
  · left
    have h0 : t - 2 = 0 := by omega
    have hns : ns = [] := by
      show (((List.range (t - 2)).map (· + 1)).filter _) = []
      rw [h0]; rfl
    refine ⟨hns, ?_⟩
    show compMaxSnt lg sq y t sigma = sntInit
    unfold compMaxSnt
    rw [if_pos (Or.inl ht)]
  · have hr : r = ((List.range (t - 2)).map (· + 1)).foldl (sntStep lg sq y t sigma) sntInit := by
      show compMaxSnt lg sq y t sigma = _
      unfold compMaxSnt
      rw [if_neg (by rw [not_or]; exact ⟨ht, not_le.mpr hs⟩)]
    obtain ⟨s1, s2⟩ := sntFold_split lg sq y t sigma ((List.range (t - 2)).map (· + 1)) sntInit
    rw [← hr] at s1 s2
    have hden : ∀ n ∈ ns, 0 < sigma * sq ((t - n : Nat) : K) := by
      intro n hn
      have := (List.mem_filter.mp hn).2
      rw [decide_eq_true_eq] at this
      exact lt_trans (by positivity) this
    have hposU : ∀ n ∈ ns, 0 ≤ departUp sq y t sigma n := fun n hn => div_nonneg (le_max_left _ _) (hden n hn).le
    have hposD : ∀ n ∈ ns, 0 ≤ departDown sq y t sigma n := fun n hn => div_nonneg (le_max_left _ _) (hden n hn).le
    have hneg : (-(1 / 1000000) : K) < 0 := by norm_num
    have u := foldl_runMax (departUp sq y t sigma) crit ns (-(1 / 1000000)) 0 hposU hneg
    have d := foldl_runMax (departDown sq y t sigma) crit ns (-(1 / 1000000)) 0 hposD hneg
    simp only [] at u d
    have e1 : (r.up, r.critUp) = ns.foldl (fun (s : K × K) n => if departUp sq y t sigma n > s.1 then
        (departUp sq y t sigma n, crit n) else s) (-(1 / 1000000), 0) := s1
    have e2 : (r.down, r.critDown) = ns.foldl (fun (s : K × K) n => if departDown sq y t sigma n > s.1 then
        (departDown sq y t sigma n, crit n) else s) (-(1 / 1000000), 0) := s2
    rw [← e1] at u
    rw [← e2] at d
    rcases u with ⟨u1, u2⟩ | u
    · left
      refine ⟨u1, ?_⟩
      rcases d with ⟨_, d2⟩ | ⟨pre, post, m, d2, _⟩
      · obtain ⟨a1, a2⟩ := Prod.mk.inj u2
        obtain ⟨a3, a4⟩ := Prod.mk.inj d2
        have hext : ∀ x : Snt K, x.up = -(1 / 1000000) → x.critUp = 0 → x.down = -(1 / 1000000) → x.critDown = 0 →
            x = sntInit := by
          rintro ⟨_, _, _, _⟩ h1 h2 h3 h4
          simp only [] at h1 h2 h3 h4
          subst h1 h2 h3 h4; rfl
        exact hext r a1 a2 a3 a4
      · rw [u1] at d2; simp at d2
    · rcases d with ⟨d1, _⟩ | d
      · obtain ⟨pre, post, m, d2, _⟩ := u
        rw [d1] at d2; simp at d2
      · exact Or.inr ⟨u, d⟩

example : compMaxSnt (fun x : ℚ => x) (fun _ => 1) [0, 1, 5, 2, 4] 4 2 = ⟨3 / 2, 1 / 2, 1, 1⟩ := by decide +kernel

/-- A flat history (zero variance) gives the marker value and critical value zero. -/
theorem C58_no_variance (lg sq : K → K) (y : List K) (t : Nat) (sigma : K) (h : sigma ≤ 0) :
    compMaxSnt lg sq y t sigma = ⟨-(1 / 1000000), -(1 / 1000000), 0, 0⟩ := by
  unfold compMaxSnt
  rw [if_pos (Or.inr h)]
  rfl

example : sntAt (fun x : ℚ => x) (fun x => x) [1, 1, 1, 1] 3 = ⟨-(1 / 1000000), -(1 / 1000000), 0, 0⟩ := by decide +kernel

/-- Witness: the start indices 0 and `t-1` are not considered, so a departure seen only from there is missed. -/
theorem C58_skips_first_and_last_start : ∃ (y : List ℚ) (t n : Nat), n < t ∧ t < y.length ∧
    (compMaxSnt (fun x => x) (fun _ => 1) y t 1).up < departUp (fun _ => 1) y t 1 n ∧
    ∃ (z : List ℚ) (m : Nat), m = t - 1 ∧ (compMaxSnt (fun x => x) (fun _ => 1) z t 1).up < departUp (fun _ => 1) z t 1 m :=
  ⟨[0, 5, 5, 5, 5], 4, 0, by decide, by decide, by decide +kernel, [5, 5, 5, 0, 5], 3, rfl, by decide +kernel⟩

/-- The variance estimate divides the sum of `t` squared increments by `t - 1`. -/
theorem C58_variance_estimate (lg sq : K → K) (y : List K) (t : Nat) (ht : 2 ≤ t) (c : K)
    (hc : ∀ j, j < t → (y.getD (j + 1) 0 - y.getD j 0) ^ 2 = c) :
    sntAt lg sq y t = compMaxSnt lg sq y t (sq ((t : K) * c / ((t - 1 : Nat) : K))) := by
  unfold sntAt cumSqDiff
  have e : t - 1 + 1 = t := by omega
  rw [e]
  have : ((List.range t).map (fun j => (y.getD (j + 1) 0 - y.getD j 0) ^ 2)) = (List.range t).map (fun _ => c) :=
    List.map_congr_left (fun j hj => hc j (List.mem_range.mp hj))
  rw [this]
  congr 3
  rw [List.map_const', List.sum_replicate, List.length_range, nsmul_eq_mul]

example : ∀ j, j < 3 → (([0, 2, 0, 2] : List ℚ).getD (j + 1) 0 - ([0, 2, 0, 2] : List ℚ).getD j 0) ^ 2 = 4 := by decide +kernel

/-- Adding later observations changes nothing at `i` once the series is long enough to be tested at all. -/
theorem C58_causal_partial (lg sq : K → K) (prices : List K) (window warmup m i : Nat)
    (hpos : ∀ p ∈ prices, 0 < p) (hwu : 2 ≤ warmup) (hm : warmup + 2 ≤ m) (hmn : m ≤ prices.length) (hi : i < m) :
    ∃ a b, cusumRolling lg sq (prices.take m) window warmup = .ok a ∧ cusumRolling lg sq prices window warmup = .ok b ∧
      a[i]? = b[i]? := by
  have hl : (prices.take m).length = m := by rw [List.length_take]; omega
  obtain ⟨a, ha, _, ha3⟩ := C42_rolling_is_windowed lg sq (prices.take m) window warmup
    (fun p hp => hpos p (List.mem_of_mem_take hp)) hwu (by omega)
  obtain ⟨b, hb, _, hb3⟩ := C42_rolling_is_windowed lg sq prices window warmup hpos hwu (by omega)
  refine ⟨a, b, ha, hb, ?_⟩
  rw [ha3 i (by omega), hb3 i (by omega), List.take_take, min_eq_left (by omega)]

example : (∀ p ∈ ([1, 2, 4, 8, 16] : List ℚ), 0 < p) ∧ 2 ≤ 2 ∧ 2 + 2 ≤ 4 ∧ 4 ≤ ([1, 2, 4, 8, 16] : List ℚ).length ∧
    (cusumRolling id id ([1, 2, 4, 8, 16] : List ℚ) 2 2).isOk = true := by decide +kernel

/-- Witness: with exactly `warmup + 1` observations nothing is computed, one more observation makes the value at
`warmup` appear — the output at a bar depends on the existence of a later bar. -/
theorem C58_not_causal_at_warmup : ∃ (prices : List ℚ) (m i : Nat) (a b : List (Option (Snt ℚ))), i < m ∧
    cusumRolling (fun x => x) (fun x => x) (prices.take m) 5 2 = .ok a ∧
    cusumRolling (fun x => x) (fun x => x) prices 5 2 = .ok b ∧ a[i]? ≠ b[i]? :=
  ⟨[1, 3, 2, 5], 3, 2, [none, none, none], _, by decide, by decide +kernel, rfl, by decide +kernel⟩

end FinML

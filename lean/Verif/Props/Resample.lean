/-
C23: resampling time bars.  `finmlkit/bar/io.py:TimeBarReader._resample`.
-/
import Verif.Model.TimeBarStore
import Verif.Props.Ohlcv

set_option linter.unusedSectionVars false

namespace FinML

variable {K : Type} [Field K] [LinearOrder K] [IsStrictOrderedRing K]

/-! ## Specification -/

/-- `sortW` sorts by size (`argsort`; ties in any order). -/
def SortsBySize (sortW : List (K × Int) → List (K × Int)) : Prop :=
  ∀ l, (sortW l).Perm l ∧ (sortW l).Pairwise (fun a b => a.1 ≤ b.1)

/-- Total weight of the entries with size at most `m`. -/
def weightUpTo (l : List (K × Int)) (m : K) : Int := ((l.filter (fun p => p.1 ≤ m)).map (·.2)).sum

/-- `m` is the (lower) weighted median of `l`: the smallest size at which half of the total weight is reached. -/
structure IsWeightedMedian (l : List (K × Int)) (m : K) : Prop where
  mem : ∃ p ∈ l, p.1 = m
  half : (l.map (·.2)).sum ≤ 2 * weightUpTo l m
  least : ∀ p ∈ l, p.1 < m → 2 * weightUpTo l p.1 < (l.map (·.2)).sum

/-- `b` is the aggregation of the non-empty group `g` of finer bars. -/
structure IsAggOf (g : List (TBar K)) (b : TBar K) : Prop where
  opn : (g.map (·.opn)).head? = some b.opn
  close : (g.map (·.close)).getLast? = some b.close
  high_mem : ∃ r ∈ g, r.high = b.high
  high_max : ∀ r ∈ g, r.high ≤ b.high
  low_mem : ∃ r ∈ g, r.low = b.low
  low_min : ∀ r ∈ g, b.low ≤ r.low
  volume : b.volume = (g.map (·.volume)).sum
  trades : b.trades = (g.map (·.trades)).sum
  vwap : b.volume ≠ 0 → ∃ w, b.vwap = some w ∧ w * b.volume = (g.map (fun r => r.vwap.getD 0 * r.volume)).sum
  vwap_nan : b.volume = 0 → b.vwap = none

/-! ## Lemmas on grouping -/

theorem foldl_max_spec (l : List K) (x : K) :
    (∀ y ∈ x :: l, y ≤ l.foldl max x) ∧ l.foldl max x ∈ x :: l := by
  induction l generalizing x with
  | nil => simp
  | cons a l ih =>
    obtain ⟨h1, h2⟩ := ih (max x a)
    rw [List.foldl_cons]
    refine ⟨?_, ?_⟩
    · intro y hy
      rw [List.mem_cons, List.mem_cons] at hy
      have h0 := h1 (max x a) (by simp)
      rcases hy with rfl | rfl | hy
      · exact le_trans (le_max_left _ _) h0
      · exact le_trans (le_max_right _ _) h0
      · exact h1 y (by simp [hy])
    · rw [List.mem_cons] at h2
      rcases h2 with h2 | h2
      · rw [h2]
        rcases max_choice x a with h | h <;> rw [h] <;> simp
      · simp [h2]

theorem foldl_min_spec (l : List K) (x : K) :
    (∀ y ∈ x :: l, l.foldl min x ≤ y) ∧ l.foldl min x ∈ x :: l := by
  induction l generalizing x with
  | nil => simp
  | cons a l ih =>
    obtain ⟨h1, h2⟩ := ih (min x a)
    rw [List.foldl_cons]
    refine ⟨?_, ?_⟩
    · intro y hy
      rw [List.mem_cons, List.mem_cons] at hy
      have h0 := h1 (min x a) (by simp)
      rcases hy with rfl | rfl | hy
      · exact le_trans h0 (min_le_left _ _)
      · exact le_trans h0 (min_le_right _ _)
      · exact h1 y (by simp [hy])
    · rw [List.mem_cons] at h2
      rcases h2 with h2 | h2
      · rw [h2]
        rcases min_choice x a with h | h <;> rw [h] <;> simp
      · simp [h2]

theorem mem_uniq (xs : List Int) (x : Int) : x ∈ uniq xs ↔ x ∈ xs := by
  induction xs with
  | nil => simp [uniq]
  | cons a l ih =>
    unfold uniq
    rw [List.mem_cons, List.mem_cons, List.mem_filter, ih]
    by_cases h : x = a <;> simp [h]

theorem nodup_uniq (xs : List Int) : (uniq xs).Nodup := by
  induction xs with
  | nil => simp [uniq]
  | cons a l ih =>
    unfold uniq
    rw [List.nodup_cons]
    exact ⟨by simp [List.mem_filter], ih.filter _⟩

theorem uniq_sublist (xs : List Int) : (uniq xs).Sublist xs := by
  induction xs with
  | nil => exact List.Sublist.refl _
  | cons a l ih =>
    unfold uniq
    exact (List.filter_sublist.trans ih).cons_cons a

/-- Distinct values of a non-decreasing list are strictly increasing. -/
theorem uniq_sorted (xs : List Int) (h : xs.Pairwise (· ≤ ·)) : (uniq xs).Pairwise (· < ·) := by
  have h1 := h.sublist (uniq_sublist xs)
  have h2 := nodup_uniq xs
  rw [List.nodup_iff_pairwise_ne] at h2
  exact (h1.and h2).imp (fun h => lt_of_le_of_ne h.1 h.2)

theorem split_least {α : Type} (f : α → Int) (rows : List α) (k : Int) (hs : rows.Pairwise (fun a b => f a ≤ f b))
    (hk : ∀ r ∈ rows, k ≤ f r) :
    rows = rows.filter (fun r => f r = k) ++ rows.filter (fun r => f r ≠ k) := by
  induction rows with
  | nil => rfl
  | cons r rs ih =>
    rw [List.pairwise_cons] at hs
    have ih' := ih hs.2 (fun x hx => hk x (by simp [hx]))
    by_cases h : f r = k
    · simp only [List.filter_cons, h, decide_true, if_true, ne_eq, not_true_eq_false, decide_false, Bool.false_eq_true,
        if_false, List.cons_append]
      exact congrArg (r :: ·) ih'
    · have hlt : ∀ x ∈ rs, f x ≠ k := by
        intro x hx he
        have h1 := hs.1 x hx
        have h2 := hk r (by simp)
        omega
      have e1 : rs.filter (fun r => f r = k) = [] := by
        rw [List.filter_eq_nil_iff]; intro x hx; simpa using hlt x hx
      have e2 : rs.filter (fun r => f r ≠ k) = rs := by
        rw [List.filter_eq_self]; intro x hx; simpa using hlt x hx
      simp only [List.filter_cons, h, decide_false, ne_eq, not_false_eq_true, decide_true, if_true, Bool.false_eq_true,
        if_false, e1, List.nil_append]
      exact congrArg (r :: ·) e2.symm

/-- A list sorted by `f` is the concatenation of its groups, taken along any increasing list of keys that covers it. -/
theorem groups_flatten {α : Type} (f : α → Int) (ks : List Int) (hks : ks.Pairwise (· < ·)) (rows : List α)
    (hs : rows.Pairwise (fun a b => f a ≤ f b)) (hc : ∀ r ∈ rows, f r ∈ ks) :
    rows = ks.flatMap (fun k => rows.filter (fun r => f r = k)) := by
  induction ks generalizing rows with
  | nil =>
    cases rows with
    | nil => rfl
    | cons r rs => exact absurd (hc r (by simp)) (by simp)
  | cons k ks ih =>
    rw [List.pairwise_cons] at hks
    have hk : ∀ r ∈ rows, k ≤ f r := by
      intro r hr
      have := hc r hr
      rw [List.mem_cons] at this
      rcases this with h | h
      · exact le_of_eq h.symm
      · exact le_of_lt (hks.1 _ h)
    have hsp := split_least f rows k hs hk
    have ih' := ih hks.2 (rows.filter (fun r => f r ≠ k)) (hs.filter _) (by
      intro r hr
      rw [List.mem_filter] at hr
      have := hc r hr.1
      rw [List.mem_cons] at this
      have h2 : f r ≠ k := by simpa using hr.2
      rcases this with h | h
      · exact absurd h h2
      · exact h)
    rw [List.flatMap_cons]
    refine hsp.trans (congrArg (_ ++ ·) (ih'.trans ?_))
    have : ∀ k' ∈ ks, (rows.filter (fun r => f r ≠ k)).filter (fun r => f r = k') = rows.filter (fun r => f r = k') := by
      intro k' hk'
      have hne : k ≠ k' := ne_of_lt (hks.1 k' hk')
      rw [List.filter_filter]
      apply List.filter_congr
      intro r _
      by_cases h : f r = k'
      · have : f r ≠ k := fun e => hne (e.symm.trans h)
        simp [h]; exact fun e => hne e.symm
      · simp [h]
    rw [List.flatMap_def, List.flatMap_def, List.map_congr_left this]

theorem filter_flatten_map {α β : Type} (P : β → Bool) (Q : α → Bool) (F : α → List β) (l : List α)
    (h1 : ∀ x ∈ l, Q x = true → (F x).filter P = F x) (h2 : ∀ x ∈ l, Q x = false → (F x).filter P = []) :
    ((l.map F).flatten).filter P = ((l.filter Q).map F).flatten := by
  induction l with
  | nil => rfl
  | cons x xs ih =>
    rw [List.map_cons, List.flatten_cons, List.filter_append,
      ih (fun y hy => h1 y (by simp [hy])) (fun y hy => h2 y (by simp [hy]))]
    cases hQ : Q x with
    | true => rw [h1 x (by simp) hQ, List.filter_cons_of_pos hQ, List.map_cons, List.flatten_cons]
    | false => rw [h2 x (by simp) hQ, List.filter_cons_of_neg (by simp [hQ]), List.nil_append]

theorem aggBars_spec (sortW : List (K × Int) → List (K × Int)) (k : Int) (g : List (TBar K)) (hg : g ≠ []) :
    IsAggOf g (aggBars sortW k g) := by
  cases g with
  | nil => exact absurd rfl hg
  | cons r rs =>
    obtain ⟨hM, hMm⟩ := foldl_max_spec (rs.map (·.high)) r.high
    obtain ⟨hm, hmm⟩ := foldl_min_spec (rs.map (·.low)) r.low
    have ex : ∀ (f : TBar K → K) (v : K), v ∈ f r :: rs.map f → ∃ x ∈ r :: rs, f x = v := by
      intro f v hv
      rw [← List.map_cons (f := f)] at hv
      obtain ⟨x, hx, he⟩ := List.mem_map.mp hv
      exact ⟨x, hx, he⟩
    refine ⟨rfl, ?_, ex (·.high) _ hMm, ?_, ex (·.low) _ hmm, ?_, rfl, rfl, ?_, ?_⟩
    · rw [List.getLast?_map]
      show _ = some ((((r :: rs).getLast?).map (·.close)).getD 0)
      rw [List.getLast?_eq_getLast_of_ne_nil (by simp)]
      rfl
    · intro x hx
      exact hM x.high (by rw [← List.map_cons (f := fun b : TBar K => b.high)]; exact List.mem_map_of_mem hx)
    · intro x hx
      exact hm x.low (by rw [← List.map_cons (f := fun b : TBar K => b.low)]; exact List.mem_map_of_mem hx)
    · intro hv
      have hv' : ((r :: rs).map (·.volume)).sum ≠ 0 := hv
      refine ⟨_, if_neg hv', ?_⟩
      show _ / ((r :: rs).map (·.volume)).sum * ((r :: rs).map (·.volume)).sum = _
      exact div_mul_cancel₀ _ hv'
    · intro hv
      exact if_pos hv

/-! ## Weighted median -/

theorem wmedLoop_spec (cutoff : K) (s : List (K × Int)) (cum : K) (hcut : cum < cutoff ∨ s ≠ [])
    (hlast : cutoff ≤ cum + (s.map (fun p => (p.2 : K))).sum) (hne : s ≠ []) :
    ∃ pre p post, s = pre ++ p :: post ∧ wmedLoop cutoff cum s = some p.1 ∧
      cutoff ≤ cum + ((pre.map (fun p => (p.2 : K))).sum + (p.2 : K)) ∧
      (∀ q r t, pre = q ++ r :: t → cum + ((q.map (fun p => (p.2 : K))).sum + (r.2 : K)) < cutoff) := by
  induction s generalizing cum with
  | nil => exact absurd rfl hne
  | cons a l ih =>
    by_cases h : cutoff ≤ cum + (a.2 : K)
    · refine ⟨[], a, l, rfl, ?_, by simpa using h, ?_⟩
      · unfold wmedLoop; rw [if_pos h]
      · intro q r t he; simp at he
    · have h' : cum + (a.2 : K) < cutoff := not_le.mp h
      have hl : l ≠ [] := by
        rintro rfl
        simp at hlast
        exact absurd hlast h
      obtain ⟨pre, p, post, e1, e2, e3, e4⟩ := ih (cum + (a.2 : K)) (Or.inl h')
        (by rw [List.map_cons, List.sum_cons] at hlast; linarith) hl
      refine ⟨a :: pre, p, post, by rw [e1]; rfl, ?_, ?_, ?_⟩
      · unfold wmedLoop; rw [if_neg h]; exact e2
      · rw [List.map_cons, List.sum_cons]; linarith
      · intro q r t he
        cases q with
        | nil =>
          rw [List.nil_append, List.cons.injEq] at he
          rw [← he.1]; simpa using h'
        | cons b q =>
          rw [List.cons_append, List.cons.injEq] at he
          have := e4 q r t he.2
          rw [List.map_cons, List.sum_cons, ← he.1]; linarith

theorem weightUpTo_perm (l l' : List (K × Int)) (h : l.Perm l') (m : K) : weightUpTo l m = weightUpTo l' m := by
  unfold weightUpTo
  exact ((h.filter _).map _).sum_eq

theorem cast_sum_weights (l : List (K × Int)) : (((l.map (·.2)).sum : Int) : K) = (l.map (fun p => (p.2 : K))).sum := by
  induction l with
  | nil => simp
  | cons a l ih => simp [ih]

theorem sum_weights_nonneg (l : List (K × Int)) (h : ∀ p ∈ l, 0 ≤ p.2) : 0 ≤ (l.map (·.2)).sum := by
  apply List.sum_nonneg
  intro x hx
  obtain ⟨p, hp, rfl⟩ := List.mem_map.mp hx
  exact h p hp

theorem wMedian_spec (sortW : List (K × Int) → List (K × Int)) (hW : SortsBySize sortW) (l : List (K × Int))
    (hne : l ≠ []) (hw : ∀ p ∈ l, 0 ≤ p.2) : IsWeightedMedian l (wMedian sortW l) := by
  obtain ⟨hp, hs⟩ := hW l
  have hsne : sortW l ≠ [] := fun e => hne (by rw [e] at hp; exact hp.symm.eq_nil)
  have hw' : ∀ p ∈ sortW l, 0 ≤ p.2 := fun p h => hw p (hp.mem_iff.mp h)
  have htot : (l.map (·.2)).sum = ((sortW l).map (·.2)).sum := (hp.symm.map _).sum_eq
  have hup : ∀ m, weightUpTo l m = weightUpTo (sortW l) m := fun m => weightUpTo_perm l _ hp.symm m
  have hWn := sum_weights_nonneg _ hw'
  have hWk : (0 : K) ≤ ((sortW l).map (fun p => (p.2 : K))).sum := by
    rw [← cast_sum_weights]; exact_mod_cast hWn
  obtain ⟨pre, p, post, e1, e2, e3, e4⟩ := wmedLoop_spec
    (((sortW l).map (fun p => (p.2 : K))).sum * (1 / 2)) (sortW l) 0 (Or.inr hsne) (by linarith) hsne
  have hm : wMedian sortW l = p.1 := by unfold wMedian; simp only [e2, Option.getD_some]
  rw [hm]
  rw [← cast_sum_weights] at e3
  generalize hsl : sortW l = s at *
  -- everything before `p` has size at most `p.1`
  have hpre : ∀ q ∈ pre, q.1 ≤ p.1 := by
    intro q hq
    rw [e1, List.pairwise_append] at hs
    exact hs.2.2 q hq p (by simp)
  have hpost : ∀ q ∈ post, p.1 ≤ q.1 := by
    intro q hq
    rw [e1, List.pairwise_append, List.pairwise_cons] at hs
    exact hs.2.1.1 q hq
  refine ⟨⟨p, hp.mem_iff.mp (by rw [e1]; simp), rfl⟩, ?_, ?_⟩
  · rw [htot, hup]
    have hge : (pre.map (·.2)).sum + p.2 ≤ weightUpTo s p.1 := by
      unfold weightUpTo
      rw [e1, List.filter_append, List.filter_cons_of_pos (by simp), List.map_append, List.sum_append, List.map_cons,
        List.sum_cons]
      have h1 : pre.filter (fun q => q.1 ≤ p.1) = pre := by
        rw [List.filter_eq_self]; intro q hq; simpa using hpre q hq
      have h2 : 0 ≤ ((post.filter (fun q => q.1 ≤ p.1)).map (·.2)).sum := by
        apply sum_weights_nonneg
        intro q hq
        exact hw' q (by rw [e1]; simp [(List.mem_filter.mp hq).1])
      rw [h1]; omega
    have h3 : (((s.map (·.2)).sum : Int) : K) * (1 / 2) ≤ (((pre.map (·.2)).sum + p.2 : Int) : K) := by
      rw [Int.cast_add, cast_sum_weights pre, cast_sum_weights s]
      rw [cast_sum_weights s] at e3
      linarith
    have h4 : (((s.map (·.2)).sum : Int) : K) ≤ ((2 * ((pre.map (·.2)).sum + p.2) : Int) : K) := by
      rw [Int.cast_mul]; push_cast at h3 ⊢; linarith
    have h5 : (s.map (·.2)).sum ≤ 2 * ((pre.map (·.2)).sum + p.2) := by exact_mod_cast h4
    omega
  · intro q hq hlt
    rw [htot, hup]
    have hqs : q ∈ s := hp.mem_iff.mpr hq
    have hqpre : q ∈ pre := by
      rw [e1, List.mem_append, List.mem_cons] at hqs
      rcases hqs with h | rfl | h
      · exact h
      · exact absurd hlt (lt_irrefl _)
      · exact absurd hlt (not_lt.mpr (hpost q h))
    -- split `pre` after the last entry of size at most `q.1`
    have hsplit : ∃ a b, pre = a ++ b ∧ a ≠ [] ∧ (∀ x ∈ a, x.1 ≤ q.1) ∧ (∀ x ∈ b, q.1 < x.1) := by
      have hspre : pre.Pairwise (fun a b => a.1 ≤ b.1) := by
        rw [e1, List.pairwise_append] at hs; exact hs.1
      clear e1 e2 e3 e4 hpre
      induction pre with
      | nil => simp at hqpre
      | cons c cs ih =>
        rw [List.pairwise_cons] at hspre
        rw [List.mem_cons] at hqpre
        by_cases hin : q ∈ cs
        · obtain ⟨a, b, h1, h2, h3, h4⟩ := ih hin hspre.2
          refine ⟨c :: a, b, by rw [h1]; rfl, by simp, ?_, h4⟩
          intro x hx
          rw [List.mem_cons] at hx
          rcases hx with rfl | hx
          · exact hspre.1 q hin
          · exact h3 x hx
        · have hc : q = c := by rcases hqpre with h | h; exact h; exact absurd h hin
          subst hc
          refine ⟨q :: cs.filter (fun x => x.1 ≤ q.1), cs.filter (fun x => ¬ x.1 ≤ q.1), ?_, by simp, ?_, ?_⟩
          · have : cs = cs.filter (fun x => x.1 ≤ q.1) ++ cs.filter (fun x => ¬ x.1 ≤ q.1) := by
              have hh := hspre.2
              clear ih hin hqpre
              have hall := hspre.1
              induction cs with
              | nil => rfl
              | cons d ds ihd =>
                rw [List.pairwise_cons] at hh
                by_cases hd : d.1 ≤ q.1
                · have := ihd ⟨fun x hx => hspre.1 x (by simp [hx]), hh.2⟩ hh.2 (fun x hx => hspre.1 x (by simp [hx]))
                  simp only [List.filter_cons, hd, decide_true, if_true, not_true_eq_false, decide_false,
                    Bool.false_eq_true, if_false, List.cons_append]
                  exact congrArg (d :: ·) this
                · have e1 : ds.filter (fun x => x.1 ≤ q.1) = [] := by
                    rw [List.filter_eq_nil_iff]; intro x hx
                    have := hh.1 x hx
                    simp only [decide_eq_true_eq]
                    exact fun h => hd (le_trans this h)
                  have e2 : ds.filter (fun x => ¬ x.1 ≤ q.1) = ds := by
                    rw [List.filter_eq_self]; intro x hx
                    have := hh.1 x hx
                    simp only [decide_eq_true_eq]
                    exact fun h => hd (le_trans this h)
                  simp only [List.filter_cons, hd, decide_false, not_false_eq_true, decide_true, if_true,
                    Bool.false_eq_true, if_false, e1, List.nil_append]
                  exact congrArg (d :: ·) e2.symm
            rw [List.cons_append, ← this]
          · intro x hx
            rw [List.mem_cons] at hx
            rcases hx with rfl | hx
            · exact le_refl _
            · simpa using (List.mem_filter.mp hx).2
          · intro x hx
            simpa using (List.mem_filter.mp hx).2
    obtain ⟨a, b, hab, hane, ha, hb⟩ := hsplit
    have hwq : weightUpTo s q.1 = (a.map (·.2)).sum := by
      unfold weightUpTo
      rw [e1, hab, List.append_assoc, List.filter_append]
      have h1 : a.filter (fun x => x.1 ≤ q.1) = a := by
        rw [List.filter_eq_self]; intro x hx; simpa using ha x hx
      have h2 : (b ++ p :: post).filter (fun x => x.1 ≤ q.1) = [] := by
        rw [List.filter_eq_nil_iff]; intro x hx
        simp only [decide_eq_true_eq, not_le]
        rw [List.mem_append, List.mem_cons] at hx
        rcases hx with h | rfl | h
        · exact hb x h
        · exact hlt
        · exact lt_of_lt_of_le hlt (hpost x h)
      rw [h1, h2, List.append_nil]
    rw [hwq]
    obtain ⟨a', z, haz⟩ : ∃ a' z, a = a' ++ [z] := ⟨a.dropLast, a.getLast hane, (List.dropLast_append_getLast hane).symm⟩
    have h6 := e4 a' z b (by rw [hab, haz, List.append_assoc]; rfl)
    have h7 : (((a.map (·.2)).sum : Int) : K) = (a'.map (fun p => (p.2 : K))).sum + (z.2 : K) := by
      rw [cast_sum_weights, haz]; simp
    have h8 : ((2 * (a.map (·.2)).sum : Int) : K) < (((s.map (·.2)).sum : Int) : K) := by
      rw [Int.cast_mul, h7, cast_sum_weights s]; push_cast; linarith
    exact_mod_cast h8

/-- A weighted median is unique: the result does not depend on how `argsort` orders ties. -/
theorem IsWeightedMedian.unique {l : List (K × Int)} {m m' : K} (h : IsWeightedMedian l m) (h' : IsWeightedMedian l m') :
    m = m' := by
  obtain ⟨p, hp, rfl⟩ := h.mem
  obtain ⟨q, hq, rfl⟩ := h'.mem
  rcases lt_trichotomy p.1 q.1 with hlt | he | hlt
  · have := h'.least p hp hlt; have := h.half; omega
  · exact he
  · have := h.least q hq hlt; have := h'.half; omega

/-! ## C23 -/

/-- **C23 (aggregation).** For bars in time order and any positive interval: the output has one row per interval that
contains a bar, in time order, labelled with the start of the interval, and that row aggregates exactly the bars whose
timestamps lie in the interval (first open, last close, extreme high and low, summed volume and trades,
volume-weighted price). -/
theorem C23_resample (sortW : List (K × Int) → List (K × Int)) (d : Int) (hd : 0 < d) (rows : List (TBar K))
    (hs : rows.Pairwise (fun a b => a.ts ≤ b.ts)) :
    let out := resample sortW d rows
    out.Pairwise (fun a b => a.ts < b.ts) ∧
    (∀ k, (∃ b ∈ out, b.ts = k) ↔ d ∣ k ∧ ∃ r ∈ rows, k ≤ r.ts ∧ r.ts < k + d) ∧
    (∀ b ∈ out, IsAggOf (rows.filter (fun r => b.ts ≤ r.ts ∧ r.ts < b.ts + d)) b) ∧
    (out.map (fun b => rows.filter (fun r => b.ts ≤ r.ts ∧ r.ts < b.ts + d))).flatten = rows := by
  intro out
  have hfl : ∀ t k : Int, floorTo d t = k ↔ d ∣ k ∧ k ≤ t ∧ t < k + d := by
    intro t k
    unfold floorTo
    have h1 := Int.mul_ediv_add_emod t d
    have h2 := Int.emod_nonneg t (ne_of_gt hd)
    have h3 := Int.emod_lt_of_pos t hd
    constructor
    · rintro rfl
      exact ⟨Dvd.intro_left _ rfl, by linarith [mul_comm d (t / d)], by linarith [mul_comm d (t / d)]⟩
    · rintro ⟨⟨c, rfl⟩, ha, hb⟩
      have : t / d = c := by
        have h4 : d * (t / d) < d * (c + 1) := by nlinarith
        have h5 : d * c < d * (t / d + 1) := by nlinarith
        have h6 := lt_of_mul_lt_mul_left h4 (le_of_lt hd)
        have h7 := lt_of_mul_lt_mul_left h5 (le_of_lt hd)
        omega
      rw [this]; ring
  have hts : ∀ k g, (aggBars sortW k g).ts = k := by intro k g; cases g <;> rfl
  have hmono : (rows.map (fun r => floorTo d r.ts)).Pairwise (· ≤ ·) := by
    rw [List.pairwise_map]
    refine hs.imp ?_
    intro a b hab
    exact Int.mul_le_mul_of_nonneg_right (Int.ediv_le_ediv hd hab) (le_of_lt hd)
  have hu := uniq_sorted _ hmono
  have hkey : ∀ k ∈ uniq (rows.map (fun r => floorTo d r.ts)), d ∣ k ∧ ∃ r ∈ rows, k ≤ r.ts ∧ r.ts < k + d := by
    intro k hk
    rw [mem_uniq] at hk
    obtain ⟨r, hr, he⟩ := List.mem_map.mp hk
    have := (hfl r.ts k).mp he
    exact ⟨this.1, r, hr, this.2⟩
  have hgrp : ∀ k ∈ uniq (rows.map (fun r => floorTo d r.ts)),
      rows.filter (fun r => floorTo d r.ts = k) = rows.filter (fun r => k ≤ r.ts ∧ r.ts < k + d) := by
    intro k hk
    apply List.filter_congr
    intro r _
    have hdk := (hkey k hk).1
    have := hfl r.ts k
    simp only [decide_eq_decide]
    rw [this]
    exact ⟨fun h => h.2, fun h => ⟨hdk, h⟩⟩
  refine ⟨?_, ?_, ?_, ?_⟩
  · show (List.map _ _).Pairwise _
    rw [List.pairwise_map]
    refine hu.imp ?_
    intro a b hab
    rw [hts, hts]; exact hab
  · intro k
    constructor
    · rintro ⟨b, hb, rfl⟩
      obtain ⟨k, hk, rfl⟩ := List.mem_map.mp hb
      rw [hts]
      exact hkey k hk
    · rintro ⟨hdk, r, hr, h1, h2⟩
      have he := (hfl r.ts k).mpr ⟨hdk, h1, h2⟩
      refine ⟨_, List.mem_map.mpr ⟨k, ?_, rfl⟩, hts _ _⟩
      rw [mem_uniq]
      exact List.mem_map.mpr ⟨r, hr, he⟩
  · intro b hb
    obtain ⟨k, hk, rfl⟩ := List.mem_map.mp hb
    rw [hts, ← hgrp k hk]
    apply aggBars_spec
    obtain ⟨_, r, hr, h1, h2⟩ := hkey k hk
    have he := (hfl r.ts k).mpr ⟨(hkey k hk).1, h1, h2⟩
    exact List.ne_nil_of_mem (List.mem_filter.mpr ⟨hr, by simpa using he⟩)
  · show (List.map _ (List.map _ _)).flatten = rows
    rw [List.map_map]
    have := groups_flatten (fun r : TBar K => floorTo d r.ts) _ hu rows (List.pairwise_map.mp hmono)
      (fun r hr => (mem_uniq _ _).mpr (List.mem_map.mpr ⟨r, hr, rfl⟩))
    refine Eq.trans ?_ this.symm
    rw [List.flatMap_def]
    congr 1
    apply List.map_congr_left
    intro k hk
    simp only [Function.comp, hts]
    exact (hgrp k hk).symm

example : let b (t : Int) : TBar ℚ := ⟨t, 1, 2, 1, 2, 5, 2, some (3 / 2), 1⟩
    ((resample id 10 [b 3, b 9, b 12]).map (fun r => (r.ts, r.volume))) = [(0, 10), (10, 5)] := by decide +kernel

/-- **C23 (median).** The median column is the trade-weighted median of the finer bars' medians, however ties are
ordered by the sort. -/
theorem C23_weighted_median (sortW : List (K × Int) → List (K × Int)) (hW : SortsBySize sortW) (k : Int)
    (g : List (TBar K)) (hg : g ≠ []) (ht : ∀ r ∈ g, 0 ≤ r.trades) :
    IsWeightedMedian (g.map (fun b => (b.median, b.trades))) (aggBars sortW k g).median ∧
    ∀ m, IsWeightedMedian (g.map (fun b => (b.median, b.trades))) m → m = (aggBars sortW k g).median := by
  have : IsWeightedMedian (g.map (fun b => (b.median, b.trades))) (aggBars sortW k g).median := by
    cases g with
    | nil => exact absurd rfl hg
    | cons r rs =>
      apply wMedian_spec sortW hW _ (by simp)
      intro p hp
      obtain ⟨b, hb, rfl⟩ := List.mem_map.mp hp
      exact ht b hb
  exact ⟨this, fun m hm => hm.unique this⟩

/-- All columns but the median (and the label). -/
def TBar.core (b : TBar K) : K × K × K × K × K × Int × Option K :=
  (b.opn, b.high, b.low, b.close, b.volume, b.trades, b.vwap)

/-- The aggregate of a group is determined by `IsAggOf`. -/
theorem IsAggOf.unique {g : List (TBar K)} {b c : TBar K} (h : IsAggOf g b) (h' : IsAggOf g c) : b.core = c.core := by
  have e1 : b.opn = c.opn := Option.some.inj (h.opn.symm.trans h'.opn)
  have e2 : b.close = c.close := Option.some.inj (h.close.symm.trans h'.close)
  have e3 : b.high = c.high := by
    obtain ⟨r, hr, he⟩ := h.high_mem
    obtain ⟨q, hq, he'⟩ := h'.high_mem
    exact le_antisymm (he ▸ h'.high_max r hr) (he' ▸ h.high_max q hq)
  have e4 : b.low = c.low := by
    obtain ⟨r, hr, he⟩ := h.low_mem
    obtain ⟨q, hq, he'⟩ := h'.low_mem
    exact le_antisymm (he' ▸ h.low_min q hq) (he ▸ h'.low_min r hr)
  have e5 : b.volume = c.volume := h.volume.trans h'.volume.symm
  have e6 : b.trades = c.trades := h.trades.trans h'.trades.symm
  have e7 : b.vwap = c.vwap := by
    by_cases hv : b.volume = 0
    · rw [h.vwap_nan hv, h'.vwap_nan (e5 ▸ hv)]
    · obtain ⟨w, hw, hw2⟩ := h.vwap hv
      obtain ⟨x, hx, hx2⟩ := h'.vwap (e5 ▸ hv)
      rw [hw, hx]
      congr 1
      rw [← e5] at hx2
      exact mul_right_cancel₀ hv (hw2.trans hx2.symm)
  unfold TBar.core
  rw [e1, e2, e3, e4, e5, e6, e7]

/-- Aggregating aggregates of consecutive groups is aggregating the concatenation. -/
theorem IsAggOf.compose (gs : List (List (TBar K))) (bs : List (TBar K)) (b : TBar K)
    (h : List.Forall₂ IsAggOf gs bs) (hb : IsAggOf bs b) (hv : ∀ g ∈ gs, ∀ r ∈ g, 0 ≤ r.volume) : IsAggOf gs.flatten b := by
  have hne : ∀ g b, IsAggOf g b → g ≠ ([] : List (TBar K)) := by
    rintro g b hg rfl
    have := hg.opn
    simp at this
  have hmem : ∀ r, r ∈ gs.flatten → ∃ g b', g ∈ gs ∧ b' ∈ bs ∧ r ∈ g ∧ IsAggOf g b' := by
    intro r hr
    obtain ⟨g, hg, hrg⟩ := List.mem_flatten.mp hr
    clear hb hv hr
    induction h with
    | nil => simp at hg
    | cons h1 h2 ih =>
      rw [List.mem_cons] at hg
      rcases hg with rfl | hg
      · exact ⟨_, _, by simp, by simp, hrg, h1⟩
      · obtain ⟨g, b', a1, a2, a3, a4⟩ := ih hg
        exact ⟨g, b', by simp [a1], by simp [a2], a3, a4⟩
  have hmem' : ∀ b', b' ∈ bs → ∃ g, g ∈ gs ∧ IsAggOf g b' := by
    intro b' hb'
    clear hb hv hmem
    induction h with
    | nil => simp at hb'
    | cons h1 h2 ih =>
      rw [List.mem_cons] at hb'
      rcases hb' with rfl | hb'
      · exact ⟨_, by simp, h1⟩
      · obtain ⟨g, a1, a2⟩ := ih hb'
        exact ⟨g, by simp [a1], a2⟩
  have hsum : ∀ (f : TBar K → K), (∀ g ∈ gs, ∀ b', IsAggOf g b' → f b' = (g.map f).sum) →
      (bs.map f).sum = (gs.flatten.map f).sum := by
    intro f hf
    clear hb hv hmem hmem'
    induction h with
    | nil => rfl
    | cons h1 h2 ih =>
      rw [List.map_cons, List.sum_cons, List.flatten_cons, List.map_append, List.sum_append,
        ih (fun g hg => hf g (by simp [hg])), hf _ (by simp) _ h1]
  have hsumT : (bs.map (·.trades)).sum = (gs.flatten.map (·.trades)).sum := by
    clear hb hv hmem hmem' hsum
    induction h with
    | nil => rfl
    | cons h1 h2 ih =>
      rw [List.map_cons, List.sum_cons, List.flatten_cons, List.map_append, List.sum_append, ih, h1.trades]
  have hvol : (bs.map (·.volume)).sum = (gs.flatten.map (·.volume)).sum :=
    hsum (·.volume) (fun g _ b' hb' => hb'.volume)
  have hdol : (bs.map (fun r => r.vwap.getD 0 * r.volume)).sum = (gs.flatten.map (fun r => r.vwap.getD 0 * r.volume)).sum := by
    apply hsum (fun r => r.vwap.getD 0 * r.volume)
    intro g hg b' hb'
    by_cases h0 : b'.volume = 0
    · have hz : ∀ r ∈ g, r.volume = 0 := by
        intro r hr
        have hs := hb'.volume
        rw [h0] at hs
        have hall : ∀ x ∈ g.map (·.volume), 0 ≤ x := by
          intro x hx
          obtain ⟨r, hr, rfl⟩ := List.mem_map.mp hx
          exact hv g hg r hr
        have := List.single_le_sum hall r.volume (List.mem_map_of_mem hr)
        rw [← hs] at this
        exact le_antisymm this (hv g hg r hr)
      rw [h0, mul_zero]
      symm
      apply List.sum_eq_zero
      intro x hx
      obtain ⟨r, hr, rfl⟩ := List.mem_map.mp hx
      rw [hz r hr, mul_zero]
    · obtain ⟨w, hw, hw2⟩ := hb'.vwap h0
      rw [hw]; exact hw2
  refine ⟨?_, ?_, ?_, ?_, ?_, ?_, hb.volume.trans hvol, hb.trades.trans hsumT, ?_, hb.vwap_nan⟩
  · have := hb.opn
    cases h with
    | nil => simp at this
    | cons h1 h2 =>
      rename_i g b' gs' bs'
      rw [List.map_cons, List.head?_cons] at this
      rw [List.flatten_cons, List.map_append, List.head?_append_of_ne_nil _ (by simp [hne g b' h1]), h1.opn, this]
  · have := hb.close
    clear hsum hsumT hvol hdol hmem hmem' hb hv
    induction h with
    | nil => simp at this
    | cons h1 h2 ih =>
      rename_i g b' gs' bs'
      rw [List.flatten_cons, List.map_append]
      cases h2 with
      | nil =>
        rw [List.flatten_nil, List.map_nil, List.append_nil, h1.close]
        simpa using this
      | cons h3 h4 =>
        rename_i g2 b2 gs2 bs2
        rw [List.map_cons, List.map_cons, List.getLast?_cons_cons, ← List.map_cons] at this
        rw [List.getLast?_append_of_ne_nil _ (by simp [hne g2 b2 h3])]
        exact ih this
  · obtain ⟨b', hb', he⟩ := hb.high_mem
    obtain ⟨g, hg, ha⟩ := hmem' b' hb'
    obtain ⟨r, hr, he2⟩ := ha.high_mem
    exact ⟨r, List.mem_flatten.mpr ⟨g, hg, hr⟩, he2.trans he⟩
  · intro r hr
    obtain ⟨g, b', _, hb', hrg, ha⟩ := hmem r hr
    exact le_trans (ha.high_max r hrg) (hb.high_max b' hb')
  · obtain ⟨b', hb', he⟩ := hb.low_mem
    obtain ⟨g, hg, ha⟩ := hmem' b' hb'
    obtain ⟨r, hr, he2⟩ := ha.low_mem
    exact ⟨r, List.mem_flatten.mpr ⟨g, hg, hr⟩, he2.trans he⟩
  · intro r hr
    obtain ⟨g, b', _, hb', hrg, ha⟩ := hmem r hr
    exact le_trans (hb.low_min b' hb') (ha.low_min r hrg)
  · intro h0
    obtain ⟨w, hw, hw2⟩ := hb.vwap h0
    exact ⟨w, hw, hw2.trans hdol⟩

/-- **C23 (two steps).** When the middle interval divides the outer one, resampling in two steps gives the same rows
(labels and all columns except the median) as resampling in one. -/
theorem C23_two_steps (sortW : List (K × Int) → List (K × Int)) (d m : Int) (hd : 0 < d) (hm : 0 < m) (rows : List (TBar K))
    (hs : rows.Pairwise (fun a b => a.ts ≤ b.ts)) (hv : ∀ r ∈ rows, 0 ≤ r.volume) :
    (resample sortW (m * d) (resample sortW d rows)).map (fun b => (b.ts, b.core)) =
      (resample sortW (m * d) rows).map (fun b => (b.ts, b.core)) := by
  have hD : 0 < m * d := Int.mul_pos hm hd
  obtain ⟨a1, a2, a3, a4⟩ := C23_resample sortW d hd rows hs
  generalize hmid : resample sortW d rows = mid at *
  have hmids : mid.Pairwise (fun a b => a.ts ≤ b.ts) := a1.imp le_of_lt
  obtain ⟨b1, b2, b3, _⟩ := C23_resample sortW (m * d) hD mid hmids
  obtain ⟨c1, c2, c3, _⟩ := C23_resample sortW (m * d) hD rows hs
  generalize resample sortW (m * d) mid = two at *
  generalize resample sortW (m * d) rows = one at *
  -- a fine interval lies inside the coarse one that contains its label
  have hin : ∀ k q t : Int, d ∣ k → m * d ∣ q → k ≤ t → t < k + d → ((q ≤ k ∧ k < q + m * d) ↔ (q ≤ t ∧ t < q + m * d)) := by
    rintro k q t ⟨x, rfl⟩ ⟨y, rfl⟩ h1 h2
    constructor
    · rintro ⟨h3, h4⟩
      refine ⟨by linarith, ?_⟩
      have : d * x < d * (m * y + m) := by nlinarith
      have hx : x < m * y + m := lt_of_mul_lt_mul_left this (le_of_lt hd)
      have : d * (x + 1) ≤ d * (m * y + m) := by nlinarith
      nlinarith
    · rintro ⟨h3, h4⟩
      constructor
      · have : d * (m * y) < d * (x + 1) := by nlinarith
        have hx : m * y < x + 1 := lt_of_mul_lt_mul_left this (le_of_lt hd)
        have : d * (m * y) ≤ d * x := by nlinarith
        nlinarith
      · linarith
  have hdmid : ∀ b ∈ mid, d ∣ b.ts := fun b hb => ((a2 b.ts).mp ⟨b, hb, rfl⟩).1
  -- labels agree
  have hlab : ∀ k, (∃ b ∈ two, b.ts = k) ↔ ∃ b ∈ one, b.ts = k := by
    intro k
    rw [b2, c2]
    constructor
    · rintro ⟨hk, b, hb, h1, h2⟩
      obtain ⟨hdb, r, hr, h3, h4⟩ := (a2 b.ts).mp ⟨b, hb, rfl⟩
      exact ⟨hk, r, hr, (hin b.ts k r.ts hdb hk h3 h4).mp ⟨h1, h2⟩⟩
    · rintro ⟨hk, r, hr, h1, h2⟩
      have hf : ∃ f : Int, d ∣ f ∧ f ≤ r.ts ∧ r.ts < f + d := by
        refine ⟨d * (r.ts / d), Dvd.intro _ rfl, ?_, ?_⟩
        · have := Int.mul_ediv_add_emod r.ts d; have := Int.emod_nonneg r.ts (ne_of_gt hd); linarith
        · have := Int.mul_ediv_add_emod r.ts d; have := Int.emod_lt_of_pos r.ts hd; linarith
      obtain ⟨f, hf1, hf2, hf3⟩ := hf
      obtain ⟨b, hb, rfl⟩ := (a2 f).mpr ⟨hf1, r, hr, hf2, hf3⟩
      exact ⟨hk, b, hb, (hin b.ts k r.ts hf1 hk hf2 hf3).mpr ⟨h1, h2⟩⟩
  have hl : two.map (·.ts) = one.map (·.ts) := by
    have p1 : (two.map (·.ts)).Pairwise (· < ·) := List.pairwise_map.mpr b1
    have p2 : (one.map (·.ts)).Pairwise (· < ·) := List.pairwise_map.mpr c1
    have hperm : (two.map (·.ts)).Perm (one.map (·.ts)) := by
      rw [List.perm_ext_iff_of_nodup (p1.imp (fun h => ne_of_lt h)) (p2.imp (fun h => ne_of_lt h))]
      intro k
      rw [List.mem_map, List.mem_map]
      exact hlab k
    exact hperm.eq_of_pairwise (fun a b _ _ h1 h2 => absurd h1 (lt_asymm h2)) p1 p2
  -- aggregates agree
  have hagg : ∀ b ∈ two, IsAggOf (rows.filter (fun r => b.ts ≤ r.ts ∧ r.ts < b.ts + m * d)) b := by
    intro b hb
    have hq := ((b2 b.ts).mp ⟨b, hb, rfl⟩).1
    have h3 := b3 b hb
    have hflat : rows.filter (fun r => b.ts ≤ r.ts ∧ r.ts < b.ts + m * d) =
        ((mid.filter (fun x => b.ts ≤ x.ts ∧ x.ts < b.ts + m * d)).map
          (fun x => rows.filter (fun r => x.ts ≤ r.ts ∧ r.ts < x.ts + d))).flatten := by
      conv_lhs => rw [← a4]
      apply filter_flatten_map
      · intro x hx hQ
        rw [decide_eq_true_eq] at hQ
        rw [List.filter_eq_self]
        intro r hr
        have h4 := (List.mem_filter.mp hr).2
        rw [decide_eq_true_eq] at h4 ⊢
        exact (hin x.ts b.ts r.ts (hdmid x hx) hq h4.1 h4.2).mp hQ
      · intro x hx hQ
        rw [decide_eq_false_iff_not] at hQ
        rw [List.filter_eq_nil_iff]
        intro r hr
        have h4 := (List.mem_filter.mp hr).2
        rw [decide_eq_true_eq] at h4 ⊢
        exact fun h5 => hQ ((hin x.ts b.ts r.ts (hdmid x hx) hq h4.1 h4.2).mpr h5)
    rw [hflat]
    apply IsAggOf.compose _ _ b ?_ h3
    · intro g hg r hr
      obtain ⟨x, _, rfl⟩ := List.mem_map.mp hg
      exact hv r (List.mem_filter.mp hr).1
    · rw [List.forall₂_map_left_iff, List.forall₂_same]
      intro x hx
      exact a3 x (List.mem_filter.mp hx).1
  apply List.ext_getElem
  · rw [List.length_map, List.length_map]
    have := congrArg List.length hl
    simpa using this
  · intro i h1 h2
    rw [List.length_map] at h1 h2
    rw [List.getElem_map, List.getElem_map]
    have e : two[i].ts = one[i].ts := by
      have := congrArg (fun l => l[i]?) hl
      simp only [List.getElem?_map, List.getElem?_eq_getElem h1, List.getElem?_eq_getElem h2, Option.map_some] at this
      exact Option.some.inj this
    have u := IsAggOf.unique (hagg _ (List.getElem_mem h1)) (e ▸ c3 _ (List.getElem_mem h2))
    rw [e, u]

/-- **C23 (summary of trades).** If every finer bar of a group is the OHLCV summary of a non-empty run of trades with
non-negative volumes, the resampled row is the OHLCV summary (median aside) of all those trades together. -/
theorem C23_matches_trades (g : List (TBar K)) (tr : List (List K × List K)) (b : TBar K) (hb : IsAggOf g b)
    (h : List.Forall₂ (fun (r : TBar K) (t : List K × List K) => ∃ o : Ohlcv K, IsOhlcvOf t.1 t.2 o ∧
      t.1.length = t.2.length ∧ (∀ v ∈ t.2, 0 ≤ v) ∧
      r.opn = o.opn ∧ r.high = o.high ∧ r.low = o.low ∧ r.close = o.close ∧ r.volume = o.volume ∧ r.trades = o.trades ∧
      r.vwap = some o.vwap) g tr) :
    let ps := (tr.map (·.1)).flatten
    let vs := (tr.map (·.2)).flatten
    ps.head? = some b.opn ∧ ps.getLast? = some b.close ∧ b.high ∈ ps ∧ (∀ p ∈ ps, p ≤ b.high) ∧ b.low ∈ ps ∧
    (∀ p ∈ ps, b.low ≤ p) ∧ b.volume = vs.sum ∧ b.trades = ps.length ∧
    (0 < vs.sum → ∃ w, b.vwap = some w ∧ w * vs.sum = (List.zipWith (· * ·) ps vs).sum) := by
  intro ps vs
  have hmem : ∀ p ∈ ps, ∃ r ∈ g, ∃ t ∈ tr, ∃ o : Ohlcv K, IsOhlcvOf t.1 t.2 o ∧ r.high = o.high ∧ r.low = o.low ∧ p ∈ t.1 := by
    intro p hp
    obtain ⟨q, hq, hpq⟩ := List.mem_flatten.mp hp
    obtain ⟨t, ht, rfl⟩ := List.mem_map.mp hq
    clear hb hp
    induction h with
    | nil => simp at ht
    | cons h1 h2 ih =>
      rw [List.mem_cons] at ht
      rcases ht with rfl | ht
      · obtain ⟨o, a1, _, _, _, a3, a4, _⟩ := h1
        exact ⟨_, by simp, _, by simp, o, a1, a3, a4, hpq⟩
      · obtain ⟨r, hr, t', ht', o, c⟩ := ih ht (List.mem_map.mpr ⟨t, ht, rfl⟩)
        exact ⟨r, by simp [hr], t', by simp [ht'], o, c⟩
  have hmem' : ∀ r ∈ g, ∃ t ∈ tr, ∃ o : Ohlcv K, IsOhlcvOf t.1 t.2 o ∧ r.high = o.high ∧ r.low = o.low := by
    intro r hr
    clear hb hmem
    induction h with
    | nil => simp at hr
    | cons h1 h2 ih =>
      rw [List.mem_cons] at hr
      rcases hr with rfl | hr
      · obtain ⟨o, a1, _, _, _, a3, a4, _⟩ := h1
        exact ⟨_, by simp, o, a1, a3, a4⟩
      · obtain ⟨t', ht', o, c⟩ := ih hr
        exact ⟨t', by simp [ht'], o, c⟩
  have hvol : (g.map (·.volume)).sum = vs.sum := by
    show _ = ((tr.map (·.2)).flatten).sum
    clear hb hmem hmem'
    induction h with
    | nil => rfl
    | cons h1 h2 ih =>
      obtain ⟨o, a1, _, _, _, _, _, _, a5, _⟩ := h1
      rw [List.map_cons, List.sum_cons, ih, List.map_cons, List.flatten_cons, List.sum_append, a5, a1.volume]
  have htr : (g.map (·.trades)).sum = ps.length := by
    show _ = (((tr.map (·.1)).flatten).length : Int)
    clear hb hmem hmem' hvol
    induction h with
    | nil => rfl
    | cons h1 h2 ih =>
      obtain ⟨o, a1, _, _, _, _, _, _, _, a6, _⟩ := h1
      rw [List.map_cons, List.sum_cons, ih, List.map_cons, List.flatten_cons, List.length_append, a6, a1.trades]
      push_cast; rfl
  have hdol : (g.map (fun r => r.vwap.getD 0 * r.volume)).sum = (List.zipWith (· * ·) ps vs).sum := by
    show _ = (List.zipWith (· * ·) ((tr.map (·.1)).flatten) ((tr.map (·.2)).flatten)).sum
    clear hb hmem hmem' hvol htr
    induction h with
    | nil => rfl
    | cons h1 h2 ih =>
      rename_i r t g' tr' 
      obtain ⟨o, a1, a0, a9, _, _, _, _, a5, _, a7⟩ := h1
      rw [List.map_cons, List.sum_cons, ih, List.map_cons, List.flatten_cons, List.map_cons, List.flatten_cons,
        List.zipWith_append a0, List.sum_append]
      congr 1
      rw [a7, a5, a1.volume, Option.getD_some]
      rcases lt_or_ge 0 t.2.sum with hp | hn
      · exact a1.vwap hp
      · have hz : ∀ v ∈ t.2, v = 0 := by
          intro v hv
          exact le_antisymm (le_trans (List.single_le_sum a9 v hv) hn) (a9 v hv)
        have hz2 : t.2.sum = 0 := List.sum_eq_zero hz
        rw [hz2, mul_zero]
        symm
        apply List.sum_eq_zero
        intro x hx
        rw [← List.map_uncurry_zip_eq_zipWith] at hx
        obtain ⟨⟨p, v⟩, hpv, rfl⟩ := List.mem_map.mp hx
        simp only [Function.uncurry]
        rw [hz v (List.of_mem_zip hpv).2, mul_zero]
  have hne : ∀ (t : List K × List K) (o : Ohlcv K), IsOhlcvOf t.1 t.2 o → t.1 ≠ [] := by
    intro t o ho e
    have := ho.opn
    rw [e] at this; simp at this
  refine ⟨?_, ?_, ?_, ?_, ?_, ?_, hb.volume.trans hvol, hb.trades.trans htr, ?_⟩
  · have := hb.opn
    cases h with
    | nil => simp at this
    | cons h1 h2 =>
      obtain ⟨o, a1, _, _, a2, _⟩ := h1
      rw [List.map_cons, List.head?_cons] at this
      show ((List.map _ (_ :: _)).flatten).head? = _
      rw [List.map_cons, List.flatten_cons, List.head?_append_of_ne_nil _ (hne _ o a1), a1.opn, ← a2, this]
  · have := hb.close
    show ((tr.map (·.1)).flatten).getLast? = _
    clear hmem hmem' hvol htr hdol hb
    induction h with
    | nil => simp at this
    | cons h1 h2 ih =>
      rw [List.map_cons, List.flatten_cons]
      cases h2 with
      | nil =>
        obtain ⟨o, a1, _, _, _, _, _, a3, _⟩ := h1
        rw [List.map_nil, List.flatten_nil, List.append_nil, a1.close, ← a3]
        simpa using this
      | cons h3 h4 =>
        obtain ⟨o, a1, _⟩ := h3
        rw [List.map_cons, List.map_cons, List.getLast?_cons_cons, ← List.map_cons] at this
        rw [List.getLast?_append_of_ne_nil _ (by
          rw [List.map_cons, List.flatten_cons]
          simp [hne _ o a1])]
        exact ih this
  · obtain ⟨r, hr, he⟩ := hb.high_mem
    obtain ⟨t, ht, o, a1, a2, _⟩ := hmem' r hr
    rw [← he, a2]
    exact List.mem_flatten.mpr ⟨t.1, List.mem_map.mpr ⟨t, ht, rfl⟩, a1.high_mem⟩
  · intro p hp
    obtain ⟨r, hr, t, _, o, a1, a2, _, a4⟩ := hmem p hp
    exact le_trans (a2 ▸ a1.high_max p a4) (hb.high_max r hr)
  · obtain ⟨r, hr, he⟩ := hb.low_mem
    obtain ⟨t, ht, o, a1, _, a2⟩ := hmem' r hr
    rw [← he, a2]
    exact List.mem_flatten.mpr ⟨t.1, List.mem_map.mpr ⟨t, ht, rfl⟩, a1.low_mem⟩
  · intro p hp
    obtain ⟨r, hr, t, _, o, a1, _, a2, a4⟩ := hmem p hp
    exact le_trans (hb.low_min r hr) (a2 ▸ a1.low_min p a4)
  · intro hpos
    have hv0 : b.volume ≠ 0 := by rw [hb.volume, hvol]; exact ne_of_gt hpos
    obtain ⟨w, hw, hw2⟩ := hb.vwap hv0
    refine ⟨w, hw, ?_⟩
    rw [← hdol, ← hw2, hb.volume, hvol]

/-! ### Witnesses -/

/-- A concrete sort by size, for the witnesses. -/
def sortBySize (l : List (ℚ × Int)) : List (ℚ × Int) := l.insertionSort (fun a b => a.1 ≤ b.1)

/- Non-vacuity: four one-unit bars resampled to two-unit bars. -/
example : resample sortBySize 20 ([⟨20, 1, 3, 1, 2, 4, 2, some 2, 2⟩, ⟨30, 2, 5, 2, 4, 4, 1, some 4, 4⟩,
      ⟨40, 4, 4, 4, 4, 0, 0, some 0, 0⟩, ⟨50, 3, 3, 3, 3, 1, 1, some 3, 1⟩] : List (TBar ℚ)) =
    [⟨20, 1, 5, 1, 4, 8, 3, some 3, 2⟩, ⟨40, 4, 4, 3, 3, 1, 1, some 3, 1⟩] := by decide +kernel

/-- **C23 (limit).** The median column does not compose: in two steps it can differ from one step. -/
theorem C23_median_two_steps_differ :
    ∃ rows : List (TBar ℚ), (resample sortBySize 40 (resample sortBySize 20 rows)).map (·.median) ≠
      (resample sortBySize 40 rows).map (·.median) :=
  ⟨[⟨0, 1, 1, 1, 1, 1, 2, some 1, 1⟩, ⟨10, 1, 1, 1, 1, 1, 1, some 1, 5⟩, ⟨20, 1, 1, 1, 1, 1, 2, some 1, 3⟩,
    ⟨30, 1, 1, 1, 1, 1, 3, some 1, 4⟩], by decide +kernel⟩

/-- **C23 (violation: stale open).** Fine bars are built without gaps, an interval without trades repeating the last
price.  When a coarse interval begins with such a bar, the resampled open is a price at which no
trade of the interval happened.  Trades at times 11, 35 with prices 1, 5; fine interval 10, coarse interval 30: the row
labelled 30 aggregates the bars closing at 30, 40, 50 and only contains the trade at 35. -/
theorem C23_stale_open :
    (buildTimeBars [11, 35] ([1, 5] : List ℚ) [1, 1] 10).map (fun rows =>
      (resample sortBySize 30 rows).map (fun b => (b.ts, b.opn, b.close, b.trades))) =
    .ok [(0, 1, 1, 1), (30, 1, 5, 1)] := by decide +kernel

/-- **C23 (violation: shifted window).** Fine bars carry their close time but are grouped as if it were their open
time: the row labelled 30 (claiming the interval from 30) contains a trade made at time 25, and the trade made at
time 55, inside the 30-unit interval starting at 30, is in the next row. -/
theorem C23_shifted_window :
    (buildTimeBars [1, 25, 55] ([1, 5, 7] : List ℚ) [1, 1, 1] 10).map (fun rows =>
      (resample sortBySize 30 rows).map (fun b => (b.ts, b.volume, b.high))) =
    .ok [(0, 1, 1), (30, 1, 5), (60, 1, 7)] := by decide +kernel

end FinML

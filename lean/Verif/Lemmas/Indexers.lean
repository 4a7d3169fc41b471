/-
Helper lemmas on the tick, volume and dollar loops.
-/
import Verif.Model.Indexers
import Verif.Lemmas.RangeSum

namespace FinML

variable {K : Type} [Field K] [LinearOrder K]

/-! ### Index ranges -/

theorem tickLoop_mem {α : Type} (T : Int) (l : List α) (i : Nat) (cum : Int) :
    ∀ x ∈ tickLoop T i cum l, i ≤ x ∧ x < i + l.length := by
  induction l generalizing i cum with
  | nil => simp [tickLoop]
  | cons a l ih =>
    intro x hx
    simp only [tickLoop] at hx
    split at hx
    · rcases List.mem_cons.mp hx with rfl | hx
      · simp
      · have := ih (i+1) 0 x hx; simp; omega
    · have := ih (i+1) _ x hx; simp; omega

theorem volumeLoop_mem (T : K) (l : List K) (i : Nat) (cum : K) :
    ∀ x ∈ volumeLoop T i cum l, i ≤ x ∧ x < i + l.length := by
  induction l generalizing i cum with
  | nil => simp [volumeLoop]
  | cons a l ih =>
    intro x hx
    simp only [volumeLoop] at hx
    split at hx
    · rcases List.mem_cons.mp hx with rfl | hx
      · simp
      · have := ih (i+1) 0 x hx; simp; omega
    · have := ih (i+1) _ x hx; simp; omega

theorem dollarLoop_mem (T : K) (l : List (K × K)) (i : Nat) (cum : K) :
    ∀ x ∈ dollarLoop T i cum l, i ≤ x ∧ x < i + l.length := by
  induction l generalizing i cum with
  | nil => simp [dollarLoop]
  | cons a l ih =>
    intro x hx
    obtain ⟨p, v⟩ := a
    simp only [dollarLoop] at hx
    split at hx
    · rcases List.mem_cons.mp hx with rfl | hx
      · simp
      · have := ih (i+1) _ x hx; simp; omega
    · have := ih (i+1) _ x hx; simp; omega

theorem tickLoop_sorted {α : Type} (T : Int) (l : List α) (i : Nat) (cum : Int) :
    (tickLoop T i cum l).Pairwise (· < ·) := by
  induction l generalizing i cum with
  | nil => simp [tickLoop]
  | cons a l ih =>
    simp only [tickLoop]
    split
    · refine List.pairwise_cons.mpr ⟨?_, ih _ _⟩
      intro x hx; have := tickLoop_mem T l (i+1) 0 x hx; omega
    · exact ih _ _

theorem volumeLoop_sorted (T : K) (l : List K) (i : Nat) (cum : K) :
    (volumeLoop T i cum l).Pairwise (· < ·) := by
  induction l generalizing i cum with
  | nil => simp [volumeLoop]
  | cons a l ih =>
    simp only [volumeLoop]
    split
    · refine List.pairwise_cons.mpr ⟨?_, ih _ _⟩
      intro x hx; have := volumeLoop_mem T l (i+1) 0 x hx; omega
    · exact ih _ _

theorem dollarLoop_sorted (T : K) (l : List (K × K)) (i : Nat) (cum : K) :
    (dollarLoop T i cum l).Pairwise (· < ·) := by
  induction l generalizing i cum with
  | nil => simp [dollarLoop]
  | cons a l ih =>
    obtain ⟨p, v⟩ := a
    simp only [dollarLoop]
    split
    · refine List.pairwise_cons.mpr ⟨?_, ih _ _⟩
      intro x hx; have := dollarLoop_mem T l (i+1) _ x hx; omega
    · exact ih _ _

/-! ### Prefix stability -/

theorem tickLoop_append {α : Type} (T : Int) (xs ys : List α) (i : Nat) (cum : Int) :
    ∃ cum', tickLoop T i cum (xs ++ ys) = tickLoop T i cum xs ++ tickLoop T (i + xs.length) cum' ys := by
  induction xs generalizing i cum with
  | nil => exact ⟨cum, by simp [tickLoop]⟩
  | cons a l ih =>
    simp only [List.cons_append, tickLoop]
    split
    · obtain ⟨c, hc⟩ := ih (i+1) 0
      exact ⟨c, by rw [hc, List.length_cons, Nat.add_assoc i 1, Nat.add_comm 1]; rfl⟩
    · obtain ⟨c, hc⟩ := ih (i+1) (cum + 1)
      exact ⟨c, by rw [hc, List.length_cons, Nat.add_assoc i 1, Nat.add_comm 1]⟩

theorem volumeLoop_append (T : K) (xs ys : List K) (i : Nat) (cum : K) :
    ∃ cum', volumeLoop T i cum (xs ++ ys) =
      volumeLoop T i cum xs ++ volumeLoop T (i + xs.length) cum' ys := by
  induction xs generalizing i cum with
  | nil => exact ⟨cum, by simp [volumeLoop]⟩
  | cons a l ih =>
    simp only [List.cons_append, volumeLoop]
    split
    · obtain ⟨c, hc⟩ := ih (i+1) 0
      exact ⟨c, by rw [hc, List.length_cons, Nat.add_assoc i 1, Nat.add_comm 1]; rfl⟩
    · obtain ⟨c, hc⟩ := ih (i+1) (cum + a)
      exact ⟨c, by rw [hc, List.length_cons, Nat.add_assoc i 1, Nat.add_comm 1]⟩

theorem dollarLoop_append (T : K) (xs ys : List (K × K)) (i : Nat) (cum : K) :
    ∃ cum', dollarLoop T i cum (xs ++ ys) =
      dollarLoop T i cum xs ++ dollarLoop T (i + xs.length) cum' ys := by
  induction xs generalizing i cum with
  | nil => exact ⟨cum, by simp [dollarLoop]⟩
  | cons a l ih =>
    obtain ⟨p, v⟩ := a
    simp only [List.cons_append, dollarLoop]
    split
    · obtain ⟨c, hc⟩ := ih (i+1) (cum + p * v - T)
      exact ⟨c, by rw [hc, List.length_cons, Nat.add_assoc i 1, Nat.add_comm 1]; rfl⟩
    · obtain ⟨c, hc⟩ := ih (i+1) (cum + p * v)
      exact ⟨c, by rw [hc, List.length_cons, Nat.add_assoc i 1, Nat.add_comm 1]⟩

/-! ### Tick loop closed form -/

theorem tickLoop_closed {α : Type} (T : Nat) (hT : 2 ≤ T) (l : List α) (i cum : Nat) (hc : cum < T) :
    tickLoop (T : Int) i (cum : Int) l =
      (List.range ((cum + l.length) / T)).map (fun k => i + (k + 1) * T - 1 - cum) := by
  induction l generalizing i cum with
  | nil =>
    have : cum / T = 0 := Nat.div_eq_of_lt hc
    simp [tickLoop, this]
  | cons a l ih =>
    simp only [tickLoop]
    split
    · rename_i h
      have hce : cum + 1 = T := by omega
      have := ih (i+1) 0 (by omega)
      simp only [Nat.cast_zero, Nat.zero_add] at this
      rw [this]
      have h1 : (cum + (a :: l).length) / T = l.length / T + 1 := by
        rw [List.length_cons]
        have : cum + (l.length + 1) = l.length + T := by omega
        rw [this, Nat.add_div_right _ (by omega)]
      rw [h1, List.range_succ_eq_map, List.map_cons, List.map_map]
      congr 1
      · rw [Nat.zero_add, Nat.one_mul]; omega
      · apply List.map_congr_left
        intro k _
        simp only [Function.comp, Nat.succ_eq_add_one]
        have e : (k + 1 + 1) * T = (k + 1) * T + T := by ring
        rw [e]; omega
    · rename_i h
      have := ih (i+1) (cum+1) (by omega)
      push_cast at this
      rw [this]
      have h1 : cum + 1 + l.length = cum + (a :: l).length := by rw [List.length_cons]; omega
      rw [h1]
      apply List.map_congr_left
      intro k _
      have : T ≤ (k + 1) * T := Nat.le_mul_of_pos_left _ (by omega)
      omega

theorem tickLoop_one {α : Type} (T : Int) (hT : T ≤ 1) (l : List α) (i : Nat) (cum : Int) (hc : 0 ≤ cum) :
    tickLoop T i cum l = List.range' i l.length := by
  induction l generalizing i cum with
  | nil => rfl
  | cons a l ih =>
    simp only [tickLoop]
    rw [if_pos (by omega), ih (i+1) 0 (by omega), List.length_cons, List.range'_succ]

/-! ### Volume loop -/

theorem volumeLoop_firstCrossings (T : K) (v : List K) (s i : Nat) (hsi : s ≤ i) (cum : K)
    (hcum : cum = rangeSum v s i) (lo : Nat) (hlo : lo ≤ i)
    (hbelow : ∀ j, lo ≤ j → j < i → rangeSum v s (j + 1) < T) :
    FirstCrossings T v s lo (volumeLoop T i cum (v.drop i)) := by
  induction hn : v.length - i generalizing s i cum lo with
  | zero =>
    rw [List.drop_eq_nil_of_le (by omega)]
    simp only [volumeLoop, FirstCrossings]
    intro j h1 h2
    exact hbelow j h1 (by omega)
  | succ n ih =>
    have hi : i < v.length := by omega
    rw [List.drop_eq_getElem_cons hi]
    simp only [volumeLoop]
    have hs := rangeSum_succ v s i hsi hi
    rw [hcum, ← hs]
    split
    · rename_i h
      refine ⟨hlo, hi, h, hbelow, ?_⟩
      exact ih (i+1) (i+1) (le_refl _) 0 (rangeSum_self _ _).symm (i+1) (le_refl _)
        (by intro j h1 h2; omega) (by omega)
    · rename_i h
      refine ih s (i+1) (by omega) _ rfl lo (by omega) ?_ (by omega)
      intro j h1 h2
      rcases Nat.lt_or_ge j i with h3 | h3
      · exact hbelow j h1 h3
      · have : j = i := by omega
        subst this; exact not_le.mp h

/-! ### Dollar loop -/

theorem dollarLoop_char [IsStrictOrderedRing K] (T : K) (d : List (K × K)) (i : Nat) (cum : K) (pre : List Nat)
    (hpre : ∀ x ∈ pre, x < i)
    (hcum : cum = rangeSum (d.map (fun t => t.1 * t.2)) 0 i - T * (pre.length : K)) :
    ∀ j, i ≤ j → j < d.length →
      (j ∈ dollarLoop T i cum (d.drop i) ↔
        T ≤ rangeSum (d.map (fun t => t.1 * t.2)) 0 (j + 1) -
          T * (((pre ++ dollarLoop T i cum (d.drop i)).countP (fun x => decide (x < j)) : Nat) : K)) := by
  induction hn : d.length - i generalizing i cum pre with
  | zero => intro j h1 h2; omega
  | succ n ih =>
    intro j hij hj
    have hi : i < d.length := by omega
    have hs := rangeSum_succ (d.map (fun t => t.1 * t.2)) 0 i (Nat.zero_le _) (by simpa using hi)
    rw [List.getElem_map] at hs
    rw [List.drop_eq_getElem_cons hi]
    simp only [dollarLoop]
    have hcnt : pre.countP (fun x => decide (x < i)) = pre.length := by
      rw [List.countP_eq_length]; intro x hx; simpa using hpre x hx
    have hpj : pre.countP (fun x => decide (x < j)) = pre.length := by
      rw [List.countP_eq_length]; intro x hx; have := hpre x hx; simp; omega
    split
    · rename_i h
      rcases Nat.eq_or_lt_of_le hij with rfl | hlt
      · have hz : (dollarLoop T (i+1) (cum + d[i].1 * d[i].2 - T) (d.drop (i+1))).countP
            (fun x => decide (x < i)) = 0 := by
          rw [List.countP_eq_zero]; intro x hx
          have := dollarLoop_mem T _ _ _ x hx; simp; omega
        simp only [List.mem_cons, true_or, true_iff, List.countP_append, List.countP_cons, hcnt, hz,
          lt_irrefl, decide_false]
        simp only [Bool.false_eq_true, if_false, Nat.add_zero]
        rw [hs, add_sub_right_comm, ← hcum]; exact h
      · have := ih (i+1) (cum + d[i].1 * d[i].2 - T) (pre ++ [i]) (by
            intro x hx; rcases List.mem_append.mp hx with hx | hx
            · have := hpre x hx; omega
            · simp at hx; omega) (by
            rw [hs, hcum, List.length_append]; push_cast; simp; ring) (by omega) j (by omega) hj
        rw [List.mem_cons, or_iff_right (by omega), this]
        rw [List.append_assoc]; rfl
    · rename_i h
      rcases Nat.eq_or_lt_of_le hij with rfl | hlt
      · have hz : (dollarLoop T (i+1) (cum + d[i].1 * d[i].2) (d.drop (i+1))).countP
            (fun x => decide (x < i)) = 0 := by
          rw [List.countP_eq_zero]; intro x hx
          have := dollarLoop_mem T _ _ _ x hx; simp; omega
        constructor
        · intro hx; have := dollarLoop_mem T _ _ _ i hx; omega
        · intro hT
          exfalso; apply h
          rw [List.countP_append, hcnt, hz, hs] at hT
          rw [hcum]; push_cast at hT; linarith
      · have := ih (i+1) (cum + d[i].1 * d[i].2) pre (by
            intro x hx; have := hpre x hx; omega) (by
            rw [hs, hcum]; ring) (by omega) j (by omega) hj
        exact this

theorem dollarLoop_nonneg_carry [IsStrictOrderedRing K] (T : K) (l : List (K × K)) (i : Nat) (cum : K)
    (hcum : 0 ≤ cum) (hd : ∀ t ∈ l, 0 ≤ t.1 * t.2) :
    T * ((dollarLoop T i cum l).length : K) ≤ cum + (l.map (fun t => t.1 * t.2)).sum := by
  induction l generalizing i cum with
  | nil => simpa [dollarLoop] using hcum
  | cons a l ih =>
    obtain ⟨p, v⟩ := a
    have h0 : 0 ≤ p * v := hd (p, v) (by simp)
    simp only [dollarLoop]
    split
    · rename_i h
      have := ih (i+1) (cum + p * v - T) (by linarith) (fun t ht => hd t (by simp [ht]))
      simp only [List.length_cons, List.map_cons, List.sum_cons]
      push_cast
      linarith
    · have := ih (i+1) (cum + p * v) (by linarith) (fun t ht => hd t (by simp [ht]))
      simp only [List.map_cons, List.sum_cons]
      linarith

end FinML

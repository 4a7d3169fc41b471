/-
C115: bars built piece by piece.  What happens to tick, volume and dollar bars (`finmlkit/bar/logic.py:54-149`) when a
stretch of the data, for example one month, is processed on its own instead of as part of the whole.
-/
import Verif.Props.ThresholdBars
import Mathlib.Tactic.Linarith
import Mathlib.Tactic.Ring
import Mathlib.Data.Rat.Cast.Order

set_option linter.unusedSectionVars false

namespace FinML

variable {K : Type} [Field K] [LinearOrder K] [IsStrictOrderedRing K]

/-- The number of bars closed after trade `s` and up to trade `m`. -/
def barsIn (closes : List Nat) (s m : Nat) : Nat := closes.countP (fun x => decide (s < x ∧ x ≤ m))

/-- The close indices of a stretch starting at trade `s`, as indices of the whole data. -/
def movedBy (s : Nat) (closes : List Nat) : List Nat := closes.map (fun x => s + x)

/-! ### Loops from different states -/

theorem countP_le_eq_zero (c : List Nat) (i m : Nat) (h : ∀ x ∈ c, i ≤ x) (hm : m < i) :
    c.countP (fun x => decide (x ≤ m)) = 0 := by
  rw [List.countP_eq_zero]
  intro x hx
  have := h x hx
  simp; omega

/-- Two runs of the volume loop over the same trades from different accumulated volumes: the one that is ahead stays
ahead, by at most one bar. -/
theorem volumeLoop_interleave (T : K) (m : Nat) (l : List K) (hl : ∀ v ∈ l, 0 ≤ v) :
    ∀ (i : Nat) (a b : K), 0 ≤ a → a ≤ b →
      (volumeLoop T i a l).countP (fun x => decide (x ≤ m)) ≤ (volumeLoop T i b l).countP (fun x => decide (x ≤ m)) ∧
      (volumeLoop T i b l).countP (fun x => decide (x ≤ m)) ≤ (volumeLoop T i a l).countP (fun x => decide (x ≤ m)) + 1 := by
  induction l with
  | nil => intro i a b _ _; simp [volumeLoop]
  | cons v l ih =>
    intro i a b ha hab
    have hv := hl v (by simp)
    have ih' := ih (fun w hw => hl w (by simp [hw]))
    by_cases hm : m < i
    · rw [countP_le_eq_zero _ i m (fun x hx => (volumeLoop_mem T _ i a x hx).1) hm,
        countP_le_eq_zero _ i m (fun x hx => (volumeLoop_mem T _ i b x hx).1) hm]
      omega
    · have him : ∀ L : List Nat, (i :: L).countP (fun x => decide (x ≤ m)) = L.countP (fun x => decide (x ≤ m)) + 1 :=
        fun L => List.countP_cons_of_pos (p := fun x => decide (x ≤ m)) (by simp; omega)
      simp only [volumeLoop]
      by_cases h1 : a + v ≥ T
      · rw [if_pos h1, if_pos (by linarith : b + v ≥ T)]
        simp
      · rw [if_neg h1]
        by_cases h2 : b + v ≥ T
        · rw [if_pos h2, him]
          obtain ⟨h3, h4⟩ := ih' (i + 1) 0 (a + v) (le_refl _) (by linarith)
          omega
        · rw [if_neg h2]
          exact ih' (i + 1) (a + v) (b + v) (by linarith) (by linarith)

/-- The same for the dollar loop, when no single trade reaches the threshold. -/
theorem dollarLoop_interleave (T : K) (m : Nat) (l : List (K × K)) (hl : ∀ t ∈ l, 0 ≤ t.1 * t.2 ∧ t.1 * t.2 < T) :
    ∀ (i : Nat) (a b : K), 0 ≤ a → a ≤ b → b < T →
      (dollarLoop T i a l).countP (fun x => decide (x ≤ m)) ≤ (dollarLoop T i b l).countP (fun x => decide (x ≤ m)) ∧
      (dollarLoop T i b l).countP (fun x => decide (x ≤ m)) ≤ (dollarLoop T i a l).countP (fun x => decide (x ≤ m)) + 1 := by
  induction l with
  | nil => intro i a b _ _ _; simp [dollarLoop]
  | cons t l ih =>
    obtain ⟨p, v⟩ := t
    intro i a b ha hab hb
    have hv : 0 ≤ p * v ∧ p * v < T := hl (p, v) (by simp)
    have ih' := ih (fun w hw => hl w (by simp [hw]))
    by_cases hm : m < i
    · rw [countP_le_eq_zero _ i m (fun x hx => (dollarLoop_mem T _ i a x hx).1) hm,
        countP_le_eq_zero _ i m (fun x hx => (dollarLoop_mem T _ i b x hx).1) hm]
      omega
    · have him : ∀ L : List Nat, (i :: L).countP (fun x => decide (x ≤ m)) = L.countP (fun x => decide (x ≤ m)) + 1 :=
        fun L => List.countP_cons_of_pos (p := fun x => decide (x ≤ m)) (by simp; omega)
      simp only [dollarLoop]
      by_cases h1 : a + p * v ≥ T
      · rw [if_pos h1, if_pos (by linarith : b + p * v ≥ T), him, him]
        obtain ⟨h3, h4⟩ := ih' (i + 1) (a + p * v - T) (b + p * v - T) (by linarith) (by linarith) (by linarith)
        omega
      · rw [if_neg h1]
        by_cases h2 : b + p * v ≥ T
        · rw [if_pos h2, him]
          obtain ⟨h3, h4⟩ := ih' (i + 1) (b + p * v - T) (a + p * v) (by linarith) (by linarith) (by linarith)
          omega
        · rw [if_neg h2]
          exact ih' (i + 1) (a + p * v) (b + p * v) (by linarith) (by linarith) (by linarith)

/-- The loop after a first part: the state it is left in. -/
theorem volumeLoop_split (T : K) (xs ys : List K) (hx : ∀ v ∈ xs, 0 ≤ v) : ∀ (i : Nat) (cum : K), 0 ≤ cum →
    ∃ c, 0 ≤ c ∧ volumeLoop T i cum (xs ++ ys) = volumeLoop T i cum xs ++ volumeLoop T (i + xs.length) c ys := by
  induction xs with
  | nil => intro i cum h; exact ⟨cum, h, by simp [volumeLoop]⟩
  | cons a l ih =>
    intro i cum h
    have ha := hx a (by simp)
    simp only [List.cons_append, volumeLoop]
    split
    · obtain ⟨c, h0, hc⟩ := ih (fun v hv => hx v (by simp [hv])) (i + 1) 0 (le_refl _)
      exact ⟨c, h0, by rw [hc, List.length_cons, Nat.add_assoc i 1, Nat.add_comm 1]; rfl⟩
    · obtain ⟨c, h0, hc⟩ := ih (fun v hv => hx v (by simp [hv])) (i + 1) (cum + a) (by linarith)
      exact ⟨c, h0, by rw [hc, List.length_cons, Nat.add_assoc i 1, Nat.add_comm 1]⟩

theorem dollarLoop_split (T : K) (xs ys : List (K × K)) (hx : ∀ t ∈ xs, 0 ≤ t.1 * t.2 ∧ t.1 * t.2 < T) :
    ∀ (i : Nat) (cum : K), 0 ≤ cum → cum < T →
    ∃ c, 0 ≤ c ∧ c < T ∧ dollarLoop T i cum (xs ++ ys) = dollarLoop T i cum xs ++ dollarLoop T (i + xs.length) c ys := by
  induction xs with
  | nil => intro i cum h h'; exact ⟨cum, h, h', by simp [dollarLoop]⟩
  | cons a l ih =>
    obtain ⟨p, v⟩ := a
    intro i cum h h'
    have ha : 0 ≤ p * v ∧ p * v < T := hx (p, v) (by simp)
    simp only [List.cons_append, dollarLoop]
    split
    · rename_i hc
      obtain ⟨c, h0, h1, hc⟩ := ih (fun v hv => hx v (by simp [hv])) (i + 1) (cum + p * v - T) (by linarith) (by linarith)
      exact ⟨c, h0, h1, by rw [hc, List.length_cons, Nat.add_assoc i 1, Nat.add_comm 1]; rfl⟩
    · rename_i hc
      obtain ⟨c, h0, h1, hc⟩ := ih (fun v hv => hx v (by simp [hv])) (i + 1) (cum + p * v) (by linarith) (by linarith)
      exact ⟨c, h0, h1, by rw [hc, List.length_cons, Nat.add_assoc i 1, Nat.add_comm 1]⟩

theorem volumeLoop_moved (T : K) (s : Nat) (l : List K) : ∀ (i : Nat) (cum : K),
    movedBy s (volumeLoop T i cum l) = volumeLoop T (s + i) cum l := by
  induction l with
  | nil => intro i cum; rfl
  | cons a l ih =>
    intro i cum
    have := fun c => ih (i + 1) c
    unfold movedBy at this ⊢
    simp only [volumeLoop]
    split
    · rw [List.map_cons, this]; rfl
    · rw [this]; rfl

theorem dollarLoop_moved (T : K) (s : Nat) (l : List (K × K)) : ∀ (i : Nat) (cum : K),
    movedBy s (dollarLoop T i cum l) = dollarLoop T (s + i) cum l := by
  induction l with
  | nil => intro i cum; rfl
  | cons a l ih =>
    obtain ⟨p, v⟩ := a
    intro i cum
    have := fun c => ih (i + 1) c
    unfold movedBy at this ⊢
    simp only [dollarLoop]
    split
    · rw [List.map_cons, this]; rfl
    · rw [this]; rfl

/-- Counting in a window reduces to counting up to its end. -/
theorem barsIn_loop (c : List Nat) (s m : Nat) (pre : List Nat) (hpre : ∀ x ∈ pre, x ≤ s) (hc : ∀ x ∈ c, s < x) :
    barsIn (pre ++ c) s m = c.countP (fun x => decide (x ≤ m)) := by
  unfold barsIn
  rw [List.countP_append]
  have h1 : pre.countP (fun x => decide (s < x ∧ x ≤ m)) = 0 := by
    rw [List.countP_eq_zero]
    intro x hx
    have := hpre x hx
    simp; omega
  rw [h1, Nat.zero_add]
  apply List.countP_congr
  intro x hx
  have := hc x hx
  simp; omega

/-- The bars of the whole data after trade `s`, and the bars of the stretch that starts at `s`. -/
theorem volume_both (vols : List K) (hv : ∀ v ∈ vols, 0 ≤ v) (T : K) (s : Nat) (hs : s < vols.length) :
    ∃ c d : K, 0 ≤ c ∧ 0 ≤ d ∧ ∀ m,
      barsIn (volumeBarIndexer vols T) s m = (volumeLoop T (s + 1) c (vols.drop (s + 1))).countP (fun x => decide (x ≤ m)) ∧
      barsIn (movedBy s (volumeBarIndexer (vols.drop s) T)) s m =
        (volumeLoop T (s + 1) d (vols.drop (s + 1))).countP (fun x => decide (x ≤ m)) := by
  have hne : vols ≠ [] := by rintro rfl; simp at hs
  have hhead : 0 ≤ vols.headD 0 := by
    cases vols with
    | nil => exact absurd rfl hne
    | cons a l => exact hv a (by simp)
  have ht : vols.tail = vols.tail.take s ++ vols.drop (s + 1) := by
    rw [show vols.drop (s + 1) = vols.tail.drop s by rw [← List.drop_one, List.drop_drop, Nat.add_comm], List.take_append_drop]
  have hlen : (vols.tail.take s).length = s := by rw [List.length_take, List.length_tail]; omega
  obtain ⟨c, hc0, hc⟩ := volumeLoop_split T (vols.tail.take s) (vols.drop (s + 1))
    (fun v h => hv v (List.mem_of_mem_tail (List.mem_of_mem_take h))) 1 (vols.headD 0) hhead
  refine ⟨c, vols[s], hc0, hv _ (List.getElem_mem hs), fun m => ⟨?_, ?_⟩⟩
  · have e : volumeBarIndexer vols T = (0 :: volumeLoop T 1 (vols.headD 0) (vols.tail.take s)) ++
        volumeLoop T (s + 1) c (vols.drop (s + 1)) := by
      unfold volumeBarIndexer
      rw [List.cons_append, ← show 1 + s = s + 1 from Nat.add_comm 1 s]
      conv_rhs => rw [show volumeLoop T (1 + s) c (vols.drop (1 + s)) =
        volumeLoop T (1 + (vols.tail.take s).length) c (vols.drop (s + 1)) by rw [hlen, Nat.add_comm 1 s]]
      rw [← hc, ← ht]
    rw [e]
    refine barsIn_loop _ s m _ ?_ ?_
    · intro x hx
      rcases List.mem_cons.mp hx with rfl | hx
      · omega
      · have := volumeLoop_mem _ _ _ _ x hx
        rw [hlen] at this; omega
    · intro x hx
      have := volumeLoop_mem _ _ _ _ x hx
      omega
  · have e : movedBy s (volumeBarIndexer (vols.drop s) T) = [s] ++ volumeLoop T (s + 1) vols[s] (vols.drop (s + 1)) := by
      unfold volumeBarIndexer
      rw [List.drop_eq_getElem_cons hs, List.headD_cons, List.tail_cons]
      have := volumeLoop_moved T s (vols.drop (s + 1)) 1 vols[s]
      unfold movedBy at this ⊢
      rw [List.map_cons, this]
      rfl
    rw [e]
    refine barsIn_loop _ s m _ (by simp) ?_
    intro x hx
    have := volumeLoop_mem _ _ _ _ x hx
    omega

theorem dollar_both (trades : List (K × K)) (T : K) (hv : ∀ t ∈ trades, 0 ≤ t.1 * t.2 ∧ t.1 * t.2 < T) (s : Nat)
    (hs : s < trades.length) :
    ∃ c d : K, 0 ≤ c ∧ c < T ∧ 0 ≤ d ∧ d < T ∧ ∀ m,
      barsIn (dollarBarIndexer trades T) s m = (dollarLoop T (s + 1) c (trades.drop (s + 1))).countP (fun x => decide (x ≤ m)) ∧
      barsIn (movedBy s (dollarBarIndexer (trades.drop s) T)) s m =
        (dollarLoop T (s + 1) d (trades.drop (s + 1))).countP (fun x => decide (x ≤ m)) := by
  have hne : trades ≠ [] := by rintro rfl; simp at hs
  have hhead : 0 ≤ (trades.headD (0, 0)).1 * (trades.headD (0, 0)).2 ∧
      (trades.headD (0, 0)).1 * (trades.headD (0, 0)).2 < T := by
    cases trades with
    | nil => exact absurd rfl hne
    | cons a l => exact hv a (by simp)
  have ht : trades.tail = trades.tail.take s ++ trades.drop (s + 1) := by
    rw [show trades.drop (s + 1) = trades.tail.drop s by rw [← List.drop_one, List.drop_drop, Nat.add_comm],
      List.take_append_drop]
  have hlen : (trades.tail.take s).length = s := by rw [List.length_take, List.length_tail]; omega
  obtain ⟨c, hc0, hc1, hc⟩ := dollarLoop_split T (trades.tail.take s) (trades.drop (s + 1))
    (fun v h => hv v (List.mem_of_mem_tail (List.mem_of_mem_take h))) 1 _ hhead.1 hhead.2
  have hds := hv _ (List.getElem_mem hs)
  refine ⟨c, trades[s].1 * trades[s].2, hc0, hc1, hds.1, hds.2, fun m => ⟨?_, ?_⟩⟩
  · have e : dollarBarIndexer trades T = (0 :: dollarLoop T 1 ((trades.headD (0, 0)).1 * (trades.headD (0, 0)).2)
        (trades.tail.take s)) ++ dollarLoop T (s + 1) c (trades.drop (s + 1)) := by
      unfold dollarBarIndexer
      rw [List.cons_append, ← show 1 + s = s + 1 from Nat.add_comm 1 s]
      conv_rhs => rw [show dollarLoop T (1 + s) c (trades.drop (1 + s)) =
        dollarLoop T (1 + (trades.tail.take s).length) c (trades.drop (s + 1)) by rw [hlen, Nat.add_comm 1 s]]
      rw [← hc, ← ht]
    rw [e]
    refine barsIn_loop _ s m _ ?_ ?_
    · intro x hx
      rcases List.mem_cons.mp hx with rfl | hx
      · omega
      · have := dollarLoop_mem _ _ _ _ x hx
        rw [hlen] at this; omega
    · intro x hx
      have := dollarLoop_mem _ _ _ _ x hx
      omega
  · have e : movedBy s (dollarBarIndexer (trades.drop s) T) =
        [s] ++ dollarLoop T (s + 1) (trades[s].1 * trades[s].2) (trades.drop (s + 1)) := by
      unfold dollarBarIndexer
      rw [List.drop_eq_getElem_cons hs, List.headD_cons, List.tail_cons]
      have := dollarLoop_moved T s (trades.drop (s + 1)) 1 (trades[s].1 * trades[s].2)
      unfold movedBy at this ⊢
      rw [List.map_cons, this]
      rfl
    rw [e]
    refine barsIn_loop _ s m _ (by simp) ?_
    intro x hx
    have := dollarLoop_mem _ _ _ _ x hx
    omega

/-- **C115 (volume bars).** Processing the data from any trade `s` on as a data set of its own: up to every later trade
the number of bars closed since `s` differs from that of the whole data set by at most one, and always in the same
direction. -/
theorem C115_volume (vols : List K) (hv : ∀ v ∈ vols, 0 ≤ v) (T : K) (s : Nat) (hs : s < vols.length) :
    (∀ m, barsIn (volumeBarIndexer vols T) s m ≤ barsIn (movedBy s (volumeBarIndexer (vols.drop s) T)) s m ∧
      barsIn (movedBy s (volumeBarIndexer (vols.drop s) T)) s m ≤ barsIn (volumeBarIndexer vols T) s m + 1) ∨
    (∀ m, barsIn (movedBy s (volumeBarIndexer (vols.drop s) T)) s m ≤ barsIn (volumeBarIndexer vols T) s m ∧
      barsIn (volumeBarIndexer vols T) s m ≤ barsIn (movedBy s (volumeBarIndexer (vols.drop s) T)) s m + 1) := by
  obtain ⟨c, d, hc, hd, h⟩ := volume_both vols hv T s hs
  have hl : ∀ v ∈ vols.drop (s + 1), 0 ≤ v := fun v h => hv v (List.mem_of_mem_drop h)
  rcases le_total c d with hcd | hcd
  · left; intro m
    rw [(h m).1, (h m).2]
    exact volumeLoop_interleave T m _ hl (s + 1) c d hc hcd
  · right; intro m
    rw [(h m).1, (h m).2]
    exact volumeLoop_interleave T m _ hl (s + 1) d c hd hcd

example : (∀ v ∈ ([1, 1, 2, 1, 2, 2] : List ℚ), 0 ≤ v) ∧ volumeBarIndexer ([1, 1, 2, 1, 2, 2] : List ℚ) 3 = [0, 2, 4] ∧
    movedBy 2 (volumeBarIndexer (([1, 1, 2, 1, 2, 2] : List ℚ).drop 2) 3) = [2, 3, 5] := by decide +kernel

/-- **C115 (dollar bars).** The same for dollar bars when every trade is below the threshold. -/
theorem C115_dollar (trades : List (K × K)) (T : K) (hv : ∀ t ∈ trades, 0 ≤ t.1 * t.2 ∧ t.1 * t.2 < T) (s : Nat)
    (hs : s < trades.length) :
    (∀ m, barsIn (dollarBarIndexer trades T) s m ≤ barsIn (movedBy s (dollarBarIndexer (trades.drop s) T)) s m ∧
      barsIn (movedBy s (dollarBarIndexer (trades.drop s) T)) s m ≤ barsIn (dollarBarIndexer trades T) s m + 1) ∨
    (∀ m, barsIn (movedBy s (dollarBarIndexer (trades.drop s) T)) s m ≤ barsIn (dollarBarIndexer trades T) s m ∧
      barsIn (dollarBarIndexer trades T) s m ≤ barsIn (movedBy s (dollarBarIndexer (trades.drop s) T)) s m + 1) := by
  obtain ⟨c, d, hc, hcT, hd, hdT, h⟩ := dollar_both trades T hv s hs
  have hl : ∀ t ∈ trades.drop (s + 1), 0 ≤ t.1 * t.2 ∧ t.1 * t.2 < T := fun v h => hv v (List.mem_of_mem_drop h)
  rcases le_total c d with hcd | hcd
  · left; intro m
    rw [(h m).1, (h m).2]
    exact dollarLoop_interleave T m _ hl (s + 1) c d hc hcd hdT
  · right; intro m
    rw [(h m).1, (h m).2]
    exact dollarLoop_interleave T m _ hl (s + 1) d c hd hcd hcT

example : ∀ t ∈ ([(10, 1), (11, 1), (12, 1), (10, 1)] : List (ℚ × ℚ)), 0 ≤ t.1 * t.2 ∧ t.1 * t.2 < 20 := by decide +kernel

/-- A tick bar is a volume bar of unit volumes. -/
theorem tickLoop_volume {α : Type} (T : Int) (l : List α) : ∀ (i : Nat) (cum : Int),
    tickLoop T i cum l = volumeLoop (T : ℚ) i (cum : ℚ) (l.map (fun _ => (1 : ℚ))) := by
  induction l with
  | nil => intro i cum; rfl
  | cons a l ih =>
    intro i cum
    rw [tickLoop, List.map_cons, volumeLoop]
    have e : (cum : ℚ) + 1 = ((cum + 1 : Int) : ℚ) := by push_cast; ring
    by_cases h : cum + 1 ≥ T
    · rw [if_pos h, e, if_pos (by exact_mod_cast h), ih]
      simp
    · rw [if_neg h, e, if_neg (by exact_mod_cast h), ih]

theorem tickBarIndexer_volume {α : Type} (ts : List α) (hne : ts ≠ []) (T : Int) :
    tickBarIndexer ts T = volumeBarIndexer (ts.map (fun _ => (1 : ℚ))) (T : ℚ) := by
  unfold tickBarIndexer volumeBarIndexer
  rw [tickLoop_volume]
  cases ts with
  | nil => exact absurd rfl hne
  | cons a l => simp

/-- **C115 (tick bars).** The same for tick bars. -/
theorem C115_tick {α : Type} (ts : List α) (T : Int) (s : Nat) (hs : s < ts.length) :
    (∀ m, barsIn (tickBarIndexer ts T) s m ≤ barsIn (movedBy s (tickBarIndexer (ts.drop s) T)) s m ∧
      barsIn (movedBy s (tickBarIndexer (ts.drop s) T)) s m ≤ barsIn (tickBarIndexer ts T) s m + 1) ∨
    (∀ m, barsIn (movedBy s (tickBarIndexer (ts.drop s) T)) s m ≤ barsIn (tickBarIndexer ts T) s m ∧
      barsIn (tickBarIndexer ts T) s m ≤ barsIn (movedBy s (tickBarIndexer (ts.drop s) T)) s m + 1) := by
  have h1 : ts ≠ [] := by rintro rfl; simp at hs
  have h2 : ts.drop s ≠ [] := by rw [Ne, List.drop_eq_nil_iff]; omega
  rw [tickBarIndexer_volume ts h1, tickBarIndexer_volume _ h2, List.map_drop]
  apply C115_volume
  · intro v hv
    obtain ⟨_, _, rfl⟩ := List.mem_map.mp hv
    norm_num
  · simpa using hs

example : tickBarIndexer (List.range 7) 3 = [0, 2, 5] ∧ movedBy 1 (tickBarIndexer ((List.range 7).drop 1) 3) = [1, 3, 6] := by
  decide +kernel

/-! ### Restarting at a close -/

theorem volumeLoop_restart (T : K) (l : List K) : ∀ (i : Nat) (cum : K) (c : Nat), c ∈ volumeLoop T i cum l →
    (volumeLoop T i cum l).filter (fun x => decide (c < x)) = volumeLoop T (c + 1) 0 (l.drop (c + 1 - i)) := by
  have hall : ∀ (l : List K) (i : Nat) (cum : K) (c : Nat), c < i →
      (volumeLoop T i cum l).filter (fun x => decide (c < x)) = volumeLoop T i cum l := by
    intro l i cum c hc
    rw [List.filter_eq_self]
    intro x hx
    have := volumeLoop_mem _ _ _ _ x hx
    simp; omega
  induction l with
  | nil => intro i cum c hc; simp [volumeLoop] at hc
  | cons v l ih =>
    intro i cum c hc
    simp only [volumeLoop] at hc ⊢
    by_cases h : cum + v ≥ T
    · rw [if_pos h] at hc ⊢
      rcases List.mem_cons.mp hc with rfl | hc
      · rw [List.filter_cons_of_neg (by simp), hall _ _ _ _ (by omega)]
        simp
      · have hge := (volumeLoop_mem _ _ _ _ c hc).1
        rw [List.filter_cons_of_neg (by simp; omega), ih (i + 1) 0 c hc,
          show c + 1 - i = (c + 1 - (i + 1)) + 1 by omega, List.drop_succ_cons]
    · rw [if_neg h] at hc ⊢
      have hge := (volumeLoop_mem _ _ _ _ c hc).1
      rw [ih (i + 1) _ c hc, show c + 1 - i = (c + 1 - (i + 1)) + 1 by omega, List.drop_succ_cons]

/-- **C115 (restart at a close).** The volume bars after a close are those of the remaining trades preceded by a trade of
volume zero: closing leaves nothing behind.  So a stretch that starts with the closing trade itself counts that trade a
second time. -/
theorem C115_volume_restart (vols : List K) (T : K) (c : Nat) (hc : c ∈ volumeBarIndexer vols T) (h0 : c ≠ 0) :
    (volumeBarIndexer vols T).filter (fun x => decide (c ≤ x)) = movedBy c (volumeBarIndexer (0 :: vols.drop (c + 1)) T) := by
  unfold volumeBarIndexer at hc
  rcases List.mem_cons.mp hc with rfl | hc
  · exact absurd rfl h0
  · have hge := (volumeLoop_mem _ _ _ _ c hc).1
    have hr := volumeLoop_restart T _ _ _ c hc
    have hsort := volumeLoop_sorted T vols.tail 1 (vols.headD 0)
    have e : (volumeLoop T 1 (vols.headD 0) vols.tail).filter (fun x => decide (c ≤ x)) =
        c :: (volumeLoop T 1 (vols.headD 0) vols.tail).filter (fun x => decide (c < x)) := by
      generalize volumeLoop T 1 (vols.headD 0) vols.tail = L at hc hsort
      clear hr
      induction L with
      | nil => simp at hc
      | cons a L ih =>
        obtain ⟨h1, h2⟩ := List.pairwise_cons.mp hsort
        rcases List.mem_cons.mp hc with rfl | hc
        · rw [List.filter_cons_of_pos (by simp), List.filter_cons_of_neg (by simp)]
          congr 1
          apply List.filter_congr
          intro x hx
          have := h1 x hx
          simp; omega
        · have := h1 c hc
          rw [List.filter_cons_of_neg (by simp; omega), List.filter_cons_of_neg (by simp; omega), ih hc h2]
    unfold volumeBarIndexer
    rw [List.filter_cons_of_neg (by simp; omega), e, hr]
    have hm := volumeLoop_moved T c (vols.drop (c + 1)) 1 0
    unfold movedBy at hm ⊢
    rw [List.headD_cons, List.tail_cons, List.map_cons, hm]
    rw [show vols.tail.drop (c + 1 - 1) = vols.drop (c + 1) by
      rw [← List.drop_one, List.drop_drop]; congr 1; omega]
    rfl

example : 2 ∈ volumeBarIndexer ([1, 1, 2, 1, 2, 2] : List ℚ) 3 ∧ movedBy 2 (volumeBarIndexer (0 :: ([1, 1, 2, 1, 2, 2] : List ℚ).drop 3) 3) = [2, 4] := by
  decide +kernel

/-- **C115 (tick bars restarted at a close).** With threshold `T ≥ 2`, restarting at a close moves every later close one
trade earlier. -/
theorem C115_tick_restart {α : Type} (ts : List α) (T : Nat) (hT : 2 ≤ T) (k : Nat) (hk : (k + 1) * T ≤ ts.length) (j : Nat)
    (hj : (k + 1) * T + (j + 1) * T ≤ ts.length) :
    (tickBarIndexer ts T)[k + 1]? = some ((k + 1) * T - 1) ∧
    (movedBy ((k + 1) * T - 1) (tickBarIndexer (ts.drop ((k + 1) * T - 1)) T))[j + 1]? = some ((k + 1) * T + (j + 1) * T - 2) ∧
    (tickBarIndexer ts T)[k + 1 + (j + 1)]? = some ((k + 1) * T + (j + 1) * T - 1) := by
  have hTk : T ≤ (k + 1) * T := Nat.le_mul_of_pos_left _ (by omega)
  have hTj : T ≤ (j + 1) * T := Nat.le_mul_of_pos_left _ (by omega)
  have hne : ts ≠ [] := by rintro rfl; simp at hk; omega
  have hne' : ts.drop ((k + 1) * T - 1) ≠ [] := by rw [Ne, List.drop_eq_nil_iff]; omega
  have hdiv : ∀ a n : Nat, (a + 1) * T ≤ n → a < n / T := by
    intro a n h
    have := (Nat.le_div_iff_mul_le (by omega : 0 < T)).mpr h
    omega
  refine ⟨?_, ?_, ?_⟩
  · rw [C03_tickBars_closed_form ts hne T hT, List.getElem?_cons_succ, List.getElem?_map, List.getElem?_range (hdiv _ _ hk)]
    rfl
  · unfold movedBy
    rw [C03_tickBars_closed_form _ hne' T hT, List.map_cons, List.getElem?_cons_succ, List.getElem?_map, List.getElem?_map,
      List.getElem?_range (hdiv _ _ (by rw [List.length_drop]; omega))]
    simp only [Option.map_some, Option.some.injEq]
    omega
  · rw [C03_tickBars_closed_form ts hne T hT, show k + 1 + (j + 1) = (k + 1 + j) + 1 by omega, List.getElem?_cons_succ,
      List.getElem?_map, List.getElem?_range (hdiv _ _ (by
        rw [show (k + 1 + j + 1) * T = (k + 1) * T + (j + 1) * T by ring]; exact hj))]
    simp only [Option.map_some, Option.some.injEq]
    rw [show (k + 1 + j + 1) * T = (k + 1) * T + (j + 1) * T by ring]

example : 2 ≤ 3 ∧ (0 + 1) * 3 + (0 + 1) * 3 ≤ (List.range 7).length ∧ (tickBarIndexer (List.range 7) 3)[1]? = some 2 := by decide +kernel

/-! ### CUSUM bars -/

theorem cusumBarLoop_mem (l : List (CusumTick K)) : ∀ (i : Nat) (p q : K), ∀ x ∈ cusumBarLoop i p q l,
    i ≤ x ∧ x < i + l.length := by
  induction l with
  | nil => intro i p q x hx; simp [cusumBarLoop] at hx
  | cons t l ih =>
    intro i p q x hx
    have ih' := fun p q h => ih (i + 1) p q x h
    rw [List.length_cons]
    simp only [cusumBarLoop] at hx
    split at hx
    · have := ih' _ _ hx; omega
    · split at hx
      · rcases List.mem_cons.mp hx with rfl | hx
        · omega
        · have := ih' _ _ hx; omega
      · split at hx
        · rcases List.mem_cons.mp hx with rfl | hx
          · omega
          · have := ih' _ _ hx; omega
        · have := ih' _ _ hx; omega

theorem cusumBarLoop_warm (l : List (CusumTick K)) : ∀ (i : Nat) (a b a' b' : K), a ≤ a' → b' ≤ b →
    ∀ x, (cusumBarLoop i a b l).head? = some x → ∃ y, (cusumBarLoop i a' b' l).head? = some y ∧ y ≤ x := by
  induction l with
  | nil => intro i a b a' b' _ _ x hx; simp [cusumBarLoop] at hx
  | cons t l ih =>
    intro i a b a' b' ha hb x hx
    have ha' : max 0 (a + t.ret) ≤ max 0 (a' + t.ret) := max_le_max (le_refl _) (by linarith)
    have hb' : min 0 (b' + t.ret) ≤ min 0 (b + t.ret) := min_le_min (le_refl _) (by linarith)
    have hge : ∀ (c d : K), x ∈ cusumBarLoop i c d (t :: l) → i ≤ x := fun c d h => (cusumBarLoop_mem _ i c d x h).1
    have hix : i ≤ x := hge a b (List.mem_of_mem_head? hx)
    simp only [cusumBarLoop] at hx ⊢
    generalize max 0 (a + t.ret) = p at *
    generalize max 0 (a' + t.ret) = p' at *
    generalize min 0 (b + t.ret) = q at *
    generalize min 0 (b' + t.ret) = q' at *
    by_cases hblk : t.inBlock = true
    · rw [if_pos hblk] at hx ⊢
      exact ih (i + 1) p q p' q' ha' hb' x hx
    · rw [if_neg hblk] at hx ⊢
      by_cases h1 : p' ≥ t.lam
      · rw [if_pos h1]; exact ⟨i, rfl, hix⟩
      · by_cases h2 : q' ≤ -t.lam
        · rw [if_neg h1, if_pos h2]; exact ⟨i, rfl, hix⟩
        · rw [if_neg h1, if_neg h2]
          rw [if_neg (fun h => h1 (le_trans h ha')), if_neg (fun h => h2 (le_trans hb' h))] at hx
          exact ih (i + 1) p q p' q' ha' hb' x hx

/-- **C115 (CUSUM bars).** A run that starts fresh never closes its first bar before a run that arrives with any
accumulated sums: whatever was accumulated before can only bring the next close forward. -/
theorem C115_cusum_first (l : List (CusumTick K)) (i : Nat) (sPos sNeg : K) (h1 : 0 ≤ sPos) (h2 : sNeg ≤ 0) (x : Nat)
    (hx : (cusumBarLoop i 0 0 l).head? = some x) : ∃ y, (cusumBarLoop i sPos sNeg l).head? = some y ∧ y ≤ x :=
  cusumBarLoop_warm l i 0 0 sPos sNeg h1 h2 x hx

example : (cusumBarLoop 1 0 0 ([⟨1, false, 2⟩, ⟨2, false, 2⟩] : List (CusumTick ℚ))).head? = some 2 ∧
    (cusumBarLoop 1 (3 / 2) (-1) ([⟨1, false, 2⟩, ⟨2, false, 2⟩] : List (CusumTick ℚ))).head? = some 1 := by decide +kernel

/-- With a constant threshold and no shared timestamps, the two sums are together below the threshold, so a close on one
side finds the other at zero: the code's one-sided reset is a full reset. -/
theorem cusumBarLoop_restart (lam : K) (hlam : 0 < lam) (l : List (CusumTick K))
    (hl : ∀ t ∈ l, t.inBlock = false ∧ t.lam = lam) :
    ∀ (i : Nat) (p q : K), 0 ≤ p → q ≤ 0 → p - q < lam → ∀ c ∈ cusumBarLoop i p q l,
      (cusumBarLoop i p q l).filter (fun x => decide (c < x)) = cusumBarLoop (c + 1) 0 0 (l.drop (c + 1 - i)) := by
  have hall : ∀ (l : List (CusumTick K)) (i : Nat) (p q : K) (c : Nat), c < i →
      (cusumBarLoop i p q l).filter (fun x => decide (c < x)) = cusumBarLoop i p q l := by
    intro l i p q c hc
    rw [List.filter_eq_self]
    intro x hx
    have := cusumBarLoop_mem _ _ _ _ x hx
    simp; omega
  induction l with
  | nil => intro i p q _ _ _ c hc; simp [cusumBarLoop] at hc
  | cons t l ih =>
    intro i p q hp hq hpq c hc
    obtain ⟨hb, ht⟩ := hl t (by simp)
    have ih' := ih (fun u hu => hl u (by simp [hu]))
    simp only [cusumBarLoop, hb, Bool.false_eq_true, if_false, ht] at hc ⊢
    have hdrop : ∀ c, i + 1 ≤ c → (t :: l).drop (c + 1 - i) = l.drop (c + 1 - (i + 1)) := by
      intro c h
      rw [show c + 1 - i = (c + 1 - (i + 1)) + 1 by omega, List.drop_succ_cons]
    by_cases h1 : max 0 (p + t.ret) ≥ lam
    · have hpr : p + t.ret ≥ lam := by
        rcases le_max_iff.mp h1 with h | h
        · linarith
        · exact h
      have hz : min 0 (q + t.ret) = 0 := min_eq_left (by linarith)
      rw [if_pos h1, hz] at hc ⊢
      rcases List.mem_cons.mp hc with rfl | hc
      · rw [List.filter_cons_of_neg (by simp), hall _ _ _ _ _ (by omega)]
        simp
      · have hge := (cusumBarLoop_mem _ _ _ _ c hc).1
        rw [List.filter_cons_of_neg (by simp; omega), ih' (i + 1) 0 0 (le_refl _) (le_refl _) (by linarith) c hc, hdrop c hge]
    · rw [if_neg h1] at hc ⊢
      by_cases h2 : min 0 (q + t.ret) ≤ -lam
      · have hqr : q + t.ret ≤ -lam := by
          rcases min_le_iff.mp h2 with h | h
          · linarith
          · exact h
        have hz : max 0 (p + t.ret) = 0 := max_eq_left (by linarith)
        rw [if_pos h2, hz] at hc ⊢
        rcases List.mem_cons.mp hc with rfl | hc
        · rw [List.filter_cons_of_neg (by simp), hall _ _ _ _ _ (by omega)]
          simp
        · have hge := (cusumBarLoop_mem _ _ _ _ c hc).1
          rw [List.filter_cons_of_neg (by simp; omega), ih' (i + 1) 0 0 (le_refl _) (le_refl _) (by linarith) c hc,
            hdrop c hge]
      · rw [if_neg h2] at hc ⊢
        have hge := (cusumBarLoop_mem _ _ _ _ c hc).1
        have hinv : max 0 (p + t.ret) - min 0 (q + t.ret) < lam := by
          rw [ge_iff_le, not_le] at h1
          rw [not_le] at h2
          rcases le_total 0 (p + t.ret) with ha | ha
          · rcases le_total 0 (q + t.ret) with hb | hb
            · rw [min_eq_left hb]; linarith
            · rw [max_eq_right ha, min_eq_right hb]; linarith
          · rw [max_eq_left ha]; linarith
        rw [ih' (i + 1) _ _ (le_max_left _ _) (min_le_left _ _) hinv c hc, hdrop c hge]

/-- **C115 (CUSUM bars restarted at a close).** With a constant threshold and no trades sharing a timestamp, the bars after
a close are exactly those of a fresh run from that close. -/
theorem C115_cusum_restart (lam : K) (hlam : 0 < lam) (l : List (CusumTick K))
    (hl : ∀ t ∈ l, t.inBlock = false ∧ t.lam = lam) (i c : Nat) (hc : c ∈ cusumBarLoop i 0 0 l) :
    (cusumBarLoop i 0 0 l).filter (fun x => decide (c < x)) = cusumBarLoop (c + 1) 0 0 (l.drop (c + 1 - i)) :=
  cusumBarLoop_restart lam hlam l hl i 0 0 (le_refl _) (le_refl _) (by linarith) c hc

example : (∀ t ∈ ([⟨1, false, 2⟩, ⟨2, false, 2⟩, ⟨-3, false, 2⟩] : List (CusumTick ℚ)), t.inBlock = false ∧ t.lam = 2) ∧
    cusumBarLoop 1 0 0 ([⟨1, false, 2⟩, ⟨2, false, 2⟩, ⟨-3, false, 2⟩] : List (CusumTick ℚ)) = [2, 3] := by decide +kernel

/-- With a threshold that changes, or with trades sharing a timestamp, it is not: the sum of the other side survives the
close.  In the first example the fall of 2 is still pending when the bar closes upwards at a threshold lowered to 1, in
the second the fall of 4 could not close inside the block. -/
theorem C115_cusum_restart_differs :
    (cusumBarLoop 0 0 0 ([⟨-2, false, 3⟩, ⟨1, false, 1⟩, ⟨-2, false, 3⟩] : List (CusumTick ℚ)) = [1, 2] ∧
      cusumBarLoop 2 0 0 ([⟨-2, false, 3⟩] : List (CusumTick ℚ)) = []) ∧
    (cusumBarLoop 0 0 0 ([⟨-7, true, 3⟩, ⟨3, false, 3⟩, ⟨0, false, 3⟩] : List (CusumTick ℚ)) = [1, 2] ∧
      cusumBarLoop 2 0 0 ([⟨0, false, 3⟩] : List (CusumTick ℚ)) = []) := by decide +kernel

/-- Processing in pieces is not the same as processing the whole: volume bars of the second half, on their own. -/
theorem C115_pieces_differ :
    volumeBarIndexer ([1, 1, 1, 1, 1, 1] : List ℚ) 2 = [0, 1, 3, 5] ∧
    movedBy 3 (volumeBarIndexer (([1, 1, 1, 1, 1, 1] : List ℚ).drop 3) 2) = [3, 4] := by decide +kernel

/-- For dollar bars the bound fails when a trade exceeds the threshold: the carried amount closes any number of bars in
the whole data set and none in the stretch. -/
theorem C115_dollar_carry_unbounded (n : Nat) :
    ∃ (trades : List (ℚ × ℚ)) (s m : Nat), s < trades.length ∧ (∀ t ∈ trades, 0 ≤ t.1 * t.2) ∧
      barsIn (dollarBarIndexer trades 1) s m = n ∧ barsIn (movedBy s (dollarBarIndexer (trades.drop s) 1)) s m = 0 := by
  have hz : ∀ (k i : Nat) (cum : ℚ), (k : ℚ) ≤ cum → ∀ m, i + k ≤ m + 1 →
      (dollarLoop 1 i cum (List.replicate k ((0 : ℚ), (0 : ℚ)))).countP (fun x => decide (x ≤ m)) = k := by
    intro k
    induction k with
    | zero => intro i cum _ m _; rfl
    | succ k ih =>
      intro i cum hc m hm
      rw [List.replicate_succ, dollarLoop]
      push_cast at hc
      have hk : (0 : ℚ) ≤ k := Nat.cast_nonneg k
      rw [if_pos (by linarith), List.countP_cons_of_pos (by simp; omega),
        ih (i + 1) _ (by linarith) m (by omega)]
  have hn : ∀ (k i : Nat), dollarLoop (1 : ℚ) i 0 (List.replicate k ((0 : ℚ), (0 : ℚ))) = [] := by
    intro k
    induction k with
    | zero => intro i; rfl
    | succ k ih =>
      intro i
      rw [List.replicate_succ, dollarLoop]
      rw [if_neg (by norm_num)]
      simpa using ih (i + 1)
  refine ⟨((n : ℚ) + 2, 1) :: (0, 0) :: List.replicate n (0, 0), 1, n + 1, by simp, ?_, ?_, ?_⟩
  · intro t ht
    simp only [List.mem_cons, List.mem_replicate] at ht
    rcases ht with rfl | rfl | ⟨_, rfl⟩
    · have : (0 : ℚ) ≤ n := Nat.cast_nonneg n
      simp; linarith
    · norm_num
    · norm_num
  · have hk : (0 : ℚ) ≤ n := Nat.cast_nonneg n
    unfold dollarBarIndexer
    simp only [List.headD_cons, List.tail_cons, dollarLoop]
    rw [if_pos (by linarith)]
    rw [show (0 : Nat) :: 1 :: dollarLoop 1 (1 + 1) (((n : ℚ) + 2) * 1 + 0 * 0 - 1) (List.replicate n ((0 : ℚ), (0 : ℚ))) =
      [0, 1] ++ dollarLoop 1 (1 + 1) (((n : ℚ) + 2) * 1 + 0 * 0 - 1) (List.replicate n ((0 : ℚ), (0 : ℚ))) from rfl]
    rw [barsIn_loop _ 1 (n + 1) [0, 1] (by simp) (fun x hx => by
      have := dollarLoop_mem _ _ _ _ x hx; omega)]
    exact hz n 2 _ (by linarith) (n + 1) (by omega)
  · unfold dollarBarIndexer
    simp only [List.drop_succ_cons, List.drop_zero, List.headD_cons, List.tail_cons, mul_zero]
    rw [hn]
    simp [movedBy, barsIn]

/- Non-vacuity of C115_volume: the stretch from trade 2 on is one bar ahead after trade 3. -/
example : (barsIn (volumeBarIndexer ([1, 1, 2, 1, 2, 2] : List ℚ) 3) 2 3,
    barsIn (movedBy 2 (volumeBarIndexer (([1, 1, 2, 1, 2, 2] : List ℚ).drop 2) 3)) 2 3) = (0, 1) := by decide +kernel

end FinML

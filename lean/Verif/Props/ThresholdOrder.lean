/-
C160 (larger thresholds give fewer and later closes).  `finmlkit/bar/logic.py` and
`finmlkit/sampling/filters.py:cusum_filter`.
-/
import Verif.Props.ThresholdBars
import Verif.Props.CusumBars
import Verif.Props.Restart
import Mathlib.Tactic.LinearCombination

set_option linter.unusedSectionVars false

namespace FinML

variable {K : Type} [Field K] [LinearOrder K] [IsStrictOrderedRing K]

/-! ## Specification -/

/-- `a` has at least as many entries as `b`, and each comes no later than the entry of `b` with the same number. -/
def Leads : List Nat → List Nat → Prop
  | _, [] => True
  | [], _ :: _ => False
  | x :: a, y :: b => x ≤ y ∧ Leads a b

/-- `Leads` in terms of entries. -/
theorem leads_iff (a b : List Nat) :
    Leads a b ↔ b.length ≤ a.length ∧ ∀ (k : Nat) (hb : k < b.length) (ha : k < a.length), a[k] ≤ b[k] := by
  induction b generalizing a with
  | nil => simp [Leads]
  | cons y b ih =>
    cases a with
    | nil => simp [Leads]
    | cons x a =>
      simp only [Leads, ih, List.length_cons]
      constructor
      · rintro ⟨h1, h2, h3⟩
        refine ⟨by omega, ?_⟩
        intro k hb ha
        cases k with
        | zero => exact h1
        | succ k => exact h3 k (by omega) (by omega)
      · rintro ⟨h2, h3⟩
        exact ⟨h3 0 (by omega) (by omega), by omega, fun k hb ha => h3 (k + 1) (by omega) (by omega)⟩

/-! ## Lemmas -/

theorem leads_cons (i d : Nat) (a b : List Nat) (hb : ∀ x ∈ b, i ≤ x) (h : Leads a (b.drop (d + 1))) :
    Leads (i :: a) (b.drop d) := by
  by_cases hd : d < b.length
  · rw [List.drop_eq_getElem_cons hd]
    exact ⟨hb _ (List.getElem_mem hd), h⟩
  · rw [List.drop_eq_nil_of_le (by omega)]; trivial

/-- Both close: the head start is kept. -/
theorem leads_both (i d : Nat) (a b : List Nat) (hb : ∀ x ∈ b, i ≤ x) (h : Leads a (b.drop d)) :
    Leads (i :: a) ((i :: b).drop d) := by
  cases d with
  | zero => exact ⟨le_refl _, h⟩
  | succ d => rw [List.drop_succ_cons]; exact leads_cons i d a b hb h

theorem tickLoop_leads {α : Type} (T T' : Int) (hT : T ≤ T') (l : List α) : ∀ (i d : Nat) (c c' : Int),
    0 ≤ c → (1 ≤ d ∨ c' ≤ c) → Leads (tickLoop T i c l) ((tickLoop T' i c' l).drop d) := by
  induction l with
  | nil => intro i d c c' _ _; simp [tickLoop, Leads]
  | cons a l ih =>
    intro i d c c' h0 hd
    have hm : ∀ c, ∀ x ∈ tickLoop T' (i + 1) c l, i ≤ x := fun c x hx => by
      have := (tickLoop_mem T' l (i + 1) c x hx).1; omega
    rw [tickLoop, tickLoop]
    by_cases h1 : c + 1 ≥ T <;> by_cases h2 : c' + 1 ≥ T'
    · rw [if_pos h1, if_pos h2]
      exact leads_both _ _ _ _ (hm _) (ih _ _ _ _ (le_refl _) (Or.inr (le_refl _)))
    · rw [if_pos h1, if_neg h2]
      exact leads_cons _ _ _ _ (hm _) (ih _ _ _ _ (le_refl _) (Or.inl (by omega)))
    · rw [if_neg h1, if_pos h2]
      obtain ⟨d, rfl⟩ : ∃ e, d = e + 1 := ⟨d - 1, by omega⟩
      rw [List.drop_succ_cons]
      exact ih _ _ _ _ (by omega) (Or.inr (by omega))
    · rw [if_neg h1, if_neg h2]
      exact ih _ _ _ _ (by omega) (by omega)

theorem volumeLoop_leads (T T' : K) (hT : T ≤ T') (l : List K) (hl : ∀ v ∈ l, 0 ≤ v) : ∀ (i d : Nat) (c c' : K),
    0 ≤ c → (1 ≤ d ∨ c' ≤ c) → Leads (volumeLoop T i c l) ((volumeLoop T' i c' l).drop d) := by
  induction l with
  | nil => intro i d c c' _ _; simp [volumeLoop, Leads]
  | cons a l ih =>
    intro i d c c' h0 hd
    have ha := hl a (by simp)
    have ih := ih (fun v hv => hl v (by simp [hv]))
    have hm : ∀ c, ∀ x ∈ volumeLoop T' (i + 1) c l, i ≤ x := fun c x hx => by
      have := (volumeLoop_mem T' l (i + 1) c x hx).1; omega
    rw [volumeLoop, volumeLoop]
    by_cases h1 : c + a ≥ T <;> by_cases h2 : c' + a ≥ T'
    · rw [if_pos h1, if_pos h2]
      exact leads_both _ _ _ _ (hm _) (ih _ _ _ _ (le_refl _) (Or.inr (le_refl _)))
    · rw [if_pos h1, if_neg h2]
      exact leads_cons _ _ _ _ (hm _) (ih _ _ _ _ (le_refl _) (Or.inl (by omega)))
    · rw [if_neg h1, if_pos h2]
      have : 1 ≤ d := by
        rcases hd with h | h
        · exact h
        · exact absurd (by linarith) h1
      obtain ⟨d, rfl⟩ : ∃ e, d = e + 1 := ⟨d - 1, by omega⟩
      rw [List.drop_succ_cons]
      exact ih _ _ _ _ (by linarith) (Or.inr (by linarith))
    · rw [if_neg h1, if_neg h2]
      exact ih _ _ _ _ (by linarith) (hd.imp id (fun h => by linarith))

/-- Carried sums: the accumulators are the same total less the thresholds paid so far, and the smaller threshold has
been paid `d` times more often. -/
theorem dollarLoop_leads (T T' : K) (hT : T ≤ T') (l : List (K × K)) : ∀ (i d n : Nat) (c c' : K),
    c + ((n + d : Nat) : K) * T = c' + (n : K) * T' →
    Leads (dollarLoop T i c l) ((dollarLoop T' i c' l).drop d) := by
  induction l with
  | nil => intro i d n c c' _; simp [dollarLoop, Leads]
  | cons a l ih =>
    obtain ⟨p, v⟩ := a
    intro i d n c c' he
    have hm : ∀ c, ∀ x ∈ dollarLoop T' (i + 1) c l, i ≤ x := fun c x hx => by
      have := (dollarLoop_mem T' l (i + 1) c x hx).1; omega
    rw [dollarLoop, dollarLoop]
    by_cases h1 : c + p * v ≥ T <;> by_cases h2 : c' + p * v ≥ T'
    · rw [if_pos h1, if_pos h2]
      exact leads_both _ _ _ _ (hm _) (ih _ _ (n + 1) _ _ (by push_cast at he ⊢; linear_combination he))
    · rw [if_pos h1, if_neg h2]
      exact leads_cons _ _ _ _ (hm _) (ih _ _ n _ _ (by push_cast at he ⊢; linear_combination he))
    · rw [if_neg h1, if_pos h2]
      have : 1 ≤ d := by
        by_contra h
        have h0 : d = 0 := by omega
        rw [h0] at he
        have hn : (n : K) * T ≤ (n : K) * T' := mul_le_mul_of_nonneg_left hT (Nat.cast_nonneg n)
        simp only [Nat.add_zero] at he
        exact h1 (by linarith)
      obtain ⟨d, rfl⟩ : ∃ e, d = e + 1 := ⟨d - 1, by omega⟩
      rw [List.drop_succ_cons]
      exact ih _ _ (n + 1) _ _ (by push_cast at he ⊢; linear_combination he)
    · rw [if_neg h1, if_neg h2]
      exact ih _ _ n _ _ (by linear_combination he)

theorem cusumFilterLoop_mem (l : List (K × K)) : ∀ (i : Nat) (p q : K), ∀ x ∈ cusumFilterLoop i p q l, i ≤ x := by
  induction l with
  | nil => intro i p q x hx; simp [cusumFilterLoop] at hx
  | cons a l ih =>
    obtain ⟨r, t⟩ := a
    intro i p q x hx
    rw [cusumFilterLoop] at hx
    split_ifs at hx
    · rcases List.mem_cons.mp hx with rfl | hx
      · exact le_refl _
      · have := ih _ _ _ x hx; omega
    · rcases List.mem_cons.mp hx with rfl | hx
      · exact le_refl _
      · have := ih _ _ _ x hx; omega
    · have := ih _ _ _ x hx; omega

/-- Two-sided sums with constant thresholds: each side of the smaller threshold is ahead or has the larger sum. -/
theorem cusumFilterLoop_leads (h h' : K) (h0 : 0 ≤ h) (hh : h ≤ h') (l : List K) : ∀ (i dp dn : Nat) (p q p' q' : K),
    p ≤ h → -h ≤ q → p' ≤ h' → -h' ≤ q' → (1 ≤ dp ∨ p' ≤ p) → (1 ≤ dn ∨ q ≤ q') →
    Leads (cusumFilterLoop i p q (l.map (fun r => (r, h))))
      ((cusumFilterLoop i p' q' (l.map (fun r => (r, h')))).drop (dp + dn)) := by
  induction l with
  | nil => intros; simp [cusumFilterLoop, Leads]
  | cons r l ih =>
    intro i dp dn p q p' q' b1 b2 b3 b4 hp hn
    have hm : ∀ p q, ∀ x ∈ cusumFilterLoop (i + 1) p q (l.map (fun r => (r, h'))), i ≤ x := fun p q x hx => by
      have := cusumFilterLoop_mem _ (i + 1) p q x hx; omega
    rw [List.map_cons, List.map_cons, cusumFilterLoop, cusumFilterLoop]
    have mp : p' ≤ p → max 0 (p' + r) ≤ max 0 (p + r) := fun h => max_le_max (le_refl _) (by linarith)
    have mn : q ≤ q' → min 0 (q + r) ≤ min 0 (q' + r) := fun h => min_le_min (le_refl _) (by linarith)
    have n1 : ∀ P Q H : K, 0 ≤ H → P ≤ H → -H ≤ Q → min 0 (Q + r) < -H → max 0 (P + r) ≤ H := by
      intro P Q H hH hP hQ hlt
      rcases min_lt_iff.mp hlt with h1 | h1
      · linarith
      · exact max_le hH (by linarith)
    have hh0 : 0 ≤ h' := le_trans h0 hh
    generalize hP : max 0 (p + r) = P at *
    generalize hQ : min 0 (q + r) = Q at *
    generalize hP' : max 0 (p' + r) = P' at *
    generalize hQ' : min 0 (q' + r) = Q' at *
    have cP : 0 ≤ P := hP ▸ le_max_left _ _
    have cP' : 0 ≤ P' := hP' ▸ le_max_left _ _
    have cQ : Q ≤ 0 := hQ ▸ min_le_left _ _
    have cQ' : Q' ≤ 0 := hQ' ▸ min_le_left _ _
    have e1 : Q < -h → P ≤ h := fun hlt => hP ▸ n1 p q h h0 b1 b2 (hQ ▸ hlt)
    have e2 : Q' < -h' → P' ≤ h' := fun hlt => hP' ▸ n1 p' q' h' hh0 b3 b4 (hQ' ▸ hlt)
    have kp : 1 ≤ dp ∨ P' ≤ P := hp.imp id mp
    have kn : 1 ≤ dn ∨ Q ≤ Q' := hn.imp id mn
    by_cases s1 : Q < -h
    · rw [if_pos s1]
      by_cases t1 : Q' < -h'
      · rw [if_pos t1]
        exact leads_both _ _ _ _ (hm _ _) (ih _ dp dn _ _ _ _ (e1 s1) (by linarith) (e2 t1) (by linarith) kp
          (Or.inr (le_refl _)))
      · rw [if_neg t1]
        by_cases t2 : P' > h'
        · rw [if_pos t2]
          have hd : 1 ≤ dp := by
            rcases kp with k | k
            · exact k
            · exact absurd (e1 s1) (by linarith)
          obtain ⟨e, rfl⟩ : ∃ e, dp = e + 1 := ⟨dp - 1, by omega⟩
          have := ih (i + 1) e (dn + 1) P 0 0 Q' (e1 s1) (by linarith) hh0 (by linarith) (Or.inr cP)
            (Or.inl (by omega))
          rw [show e + (dn + 1) = e + 1 + dn by omega] at this
          exact leads_both _ _ _ _ (hm _ _) this
        · rw [if_neg t2]
          have := ih (i + 1) dp (dn + 1) P 0 P' Q' (e1 s1) (by linarith) (by linarith) (by linarith) kp
            (Or.inl (by omega))
          exact leads_cons _ _ _ _ (hm _ _) this
    · rw [if_neg s1]
      by_cases s2 : P > h
      · rw [if_pos s2]
        by_cases t1 : Q' < -h'
        · rw [if_pos t1]
          have hd : 1 ≤ dn := by
            rcases kn with k | k
            · exact k
            · exact absurd (show Q < -h by linarith) s1
          obtain ⟨e, rfl⟩ : ∃ e, dn = e + 1 := ⟨dn - 1, by omega⟩
          have := ih (i + 1) (dp + 1) e 0 Q P' 0 h0 (by linarith) (e2 t1) (by linarith) (Or.inl (by omega))
            (Or.inr cQ)
          rw [show dp + 1 + e = dp + (e + 1) by omega] at this
          exact leads_both _ _ _ _ (hm _ _) this
        · rw [if_neg t1]
          by_cases t2 : P' > h'
          · rw [if_pos t2]
            exact leads_both _ _ _ _ (hm _ _) (ih _ dp dn _ _ _ _ h0 (by linarith) hh0 (by linarith)
              (Or.inr (le_refl _)) kn)
          · rw [if_neg t2]
            have := ih (i + 1) (dp + 1) dn 0 Q P' Q' h0 (by linarith) (by linarith) (by linarith)
              (Or.inl (by omega)) kn
            rw [show dp + 1 + dn = dp + dn + 1 by omega] at this
            exact leads_cons _ _ _ _ (hm _ _) this
      · rw [if_neg s2]
        by_cases t1 : Q' < -h'
        · rw [if_pos t1]
          have hd : 1 ≤ dn := by
            rcases kn with k | k
            · exact k
            · exact absurd (show Q < -h by linarith) s1
          obtain ⟨e, rfl⟩ : ∃ e, dn = e + 1 := ⟨dn - 1, by omega⟩
          rw [show dp + (e + 1) = dp + e + 1 by omega, List.drop_succ_cons]
          exact ih (i + 1) dp e P Q P' 0 (by linarith) (by linarith) (e2 t1) (by linarith) kp (Or.inr cQ)
        · rw [if_neg t1]
          by_cases t2 : P' > h'
          · rw [if_pos t2]
            have hd : 1 ≤ dp := by
              rcases kp with k | k
              · exact k
              · exact absurd (show P > h by linarith) s2
            obtain ⟨e, rfl⟩ : ∃ e, dp = e + 1 := ⟨dp - 1, by omega⟩
            rw [show e + 1 + dn = e + dn + 1 by omega, List.drop_succ_cons]
            exact ih (i + 1) e dn P Q 0 Q' (by linarith) (by linarith) hh0 (by linarith) (Or.inr cP) kn
          · rw [if_neg t2]
            exact ih (i + 1) dp dn P Q P' Q' (by linarith) (by linarith) (by linarith) (by linarith) kp kn

/-- The same for the loop of the CUSUM bars, outside blocks of equal timestamps. -/
theorem cusumBarLoop_leads (h h' : K) (h0 : 0 < h) (hh : h ≤ h') (l : List K) : ∀ (i dp dn : Nat) (p q p' q' : K),
    p < h → -h < q → p' < h' → -h' < q' → (1 ≤ dp ∨ p' ≤ p) → (1 ≤ dn ∨ q ≤ q') →
    Leads (cusumBarLoop i p q (l.map (fun r => ⟨r, false, h⟩)))
      ((cusumBarLoop i p' q' (l.map (fun r => ⟨r, false, h'⟩))).drop (dp + dn)) := by
  induction l with
  | nil => intros; simp [cusumBarLoop, Leads]
  | cons r l ih =>
    intro i dp dn p q p' q' b1 b2 b3 b4 hp hn
    have hm : ∀ p q, ∀ x ∈ cusumBarLoop (i + 1) p q (l.map (fun r => (⟨r, false, h'⟩ : CusumTick K))), i ≤ x :=
      fun p q x hx => by have := (cusumBarLoop_mem _ (i + 1) p q x hx).1; omega
    rw [List.map_cons, List.map_cons, cusumBarLoop, cusumBarLoop]
    simp only [Bool.false_eq_true, if_false]
    have mp : p' ≤ p → max 0 (p' + r) ≤ max 0 (p + r) := fun h => max_le_max (le_refl _) (by linarith)
    have mn : q ≤ q' → min 0 (q + r) ≤ min 0 (q' + r) := fun h => min_le_min (le_refl _) (by linarith)
    have n1 : ∀ P Q H : K, 0 < H → P < H → -H < Q → max 0 (P + r) ≥ H → -H < min 0 (Q + r) := by
      intro P Q H hH hP hQ hge
      rcases le_max_iff.mp hge with h1 | h1
      · linarith
      · exact lt_min (by linarith) (by linarith)
    have hh0 : 0 < h' := lt_of_lt_of_le h0 hh
    generalize hP : max 0 (p + r) = P at *
    generalize hQ : min 0 (q + r) = Q at *
    generalize hP' : max 0 (p' + r) = P' at *
    generalize hQ' : min 0 (q' + r) = Q' at *
    have cP : 0 ≤ P := hP ▸ le_max_left _ _
    have cQ : Q ≤ 0 := hQ ▸ min_le_left _ _
    have e1 : P ≥ h → -h < Q := fun hlt => hQ ▸ n1 p q h h0 b1 b2 (hP ▸ hlt)
    have e2 : P' ≥ h' → -h' < Q' := fun hlt => hQ' ▸ n1 p' q' h' hh0 b3 b4 (hP' ▸ hlt)
    have kp : 1 ≤ dp ∨ P' ≤ P := hp.imp id mp
    have kn : 1 ≤ dn ∨ Q ≤ Q' := hn.imp id mn
    by_cases s2 : P ≥ h
    · rw [if_pos s2]
      by_cases t2 : P' ≥ h'
      · rw [if_pos t2]
        exact leads_both _ _ _ _ (hm _ _) (ih _ dp dn _ _ _ _ h0 (e1 s2) hh0 (e2 t2) (Or.inr (le_refl _)) kn)
      · rw [if_neg t2]
        by_cases t1 : Q' ≤ -h'
        · rw [if_pos t1]
          have hd : 1 ≤ dn := by
            rcases kn with k | k
            · exact k
            · exact absurd (e1 s2) (by linarith)
          obtain ⟨e, rfl⟩ : ∃ e, dn = e + 1 := ⟨dn - 1, by omega⟩
          have := ih (i + 1) (dp + 1) e 0 Q P' 0 h0 (e1 s2) (by linarith) (by linarith) (Or.inl (by omega))
            (Or.inr cQ)
          rw [show dp + 1 + e = dp + (e + 1) by omega] at this
          exact leads_both _ _ _ _ (hm _ _) this
        · rw [if_neg t1]
          have := ih (i + 1) (dp + 1) dn 0 Q P' Q' h0 (e1 s2) (by linarith) (by linarith) (Or.inl (by omega)) kn
          rw [show dp + 1 + dn = dp + dn + 1 by omega] at this
          exact leads_cons _ _ _ _ (hm _ _) this
    · rw [if_neg s2]
      by_cases s1 : Q ≤ -h
      · rw [if_pos s1]
        by_cases t2 : P' ≥ h'
        · rw [if_pos t2]
          have hd : 1 ≤ dp := by
            rcases kp with k | k
            · exact k
            · exact absurd (show P ≥ h by linarith) s2
          obtain ⟨e, rfl⟩ : ∃ e, dp = e + 1 := ⟨dp - 1, by omega⟩
          have := ih (i + 1) e (dn + 1) P 0 0 Q' (by linarith) (by linarith) hh0 (e2 t2) (Or.inr cP)
            (Or.inl (by omega))
          rw [show e + (dn + 1) = e + 1 + dn by omega] at this
          exact leads_both _ _ _ _ (hm _ _) this
        · rw [if_neg t2]
          by_cases t1 : Q' ≤ -h'
          · rw [if_pos t1]
            exact leads_both _ _ _ _ (hm _ _) (ih _ dp dn _ _ _ _ (by linarith) (by linarith) (by linarith)
              (by linarith) kp (Or.inr (le_refl _)))
          · rw [if_neg t1]
            have := ih (i + 1) dp (dn + 1) P 0 P' Q' (by linarith) (by linarith) (by linarith) (by linarith) kp
              (Or.inl (by omega))
            exact leads_cons _ _ _ _ (hm _ _) this
      · rw [if_neg s1]
        by_cases t2 : P' ≥ h'
        · rw [if_pos t2]
          have hd : 1 ≤ dp := by
            rcases kp with k | k
            · exact k
            · exact absurd (show P ≥ h by linarith) s2
          obtain ⟨e, rfl⟩ : ∃ e, dp = e + 1 := ⟨dp - 1, by omega⟩
          rw [show e + 1 + dn = e + dn + 1 by omega, List.drop_succ_cons]
          exact ih (i + 1) e dn P Q 0 Q' (by linarith) (by linarith) hh0 (e2 t2) (Or.inr cP) kn
        · rw [if_neg t2]
          by_cases t1 : Q' ≤ -h'
          · rw [if_pos t1]
            have hd : 1 ≤ dn := by
              rcases kn with k | k
              · exact k
              · exact absurd (show Q ≤ -h by linarith) s1
            obtain ⟨e, rfl⟩ : ∃ e, dn = e + 1 := ⟨dn - 1, by omega⟩
            rw [show dp + (e + 1) = dp + e + 1 by omega, List.drop_succ_cons]
            exact ih (i + 1) dp e P Q P' 0 (by linarith) (by linarith) (by linarith) (by linarith) kp (Or.inr cQ)
          · rw [if_neg t1]
            exact ih (i + 1) dp dn P Q P' Q' (by linarith) (by linarith) (by linarith) (by linarith) kp kn

/-- The accumulators differ by a multiple of the threshold, and the larger threshold is due no more often than the
smaller one. -/
theorem dollarLoop_nested (T : K) (hT : 0 < T) (m : Nat) (hm : 1 ≤ m) (l : List (K × K))
    (hl : ∀ t ∈ l, 0 ≤ t.1 * t.2) : ∀ (i : Nat) (z : Int) (c c' : K), 0 ≤ c' → c' = c + (z : K) * T →
    (∀ n : Nat, (n : K) * ((m : K) * T) ≤ c' → (n : K) * T ≤ c) →
    ∀ x ∈ dollarLoop ((m : K) * T) i c' l, x ∈ dollarLoop T i c l := by
  induction l with
  | nil => intro i z c c' _ _ _ x hx; simp [dollarLoop] at hx
  | cons t l ih =>
    obtain ⟨p, v⟩ := t
    intro i z c c' h0 hz hdue x hx
    have hd : 0 ≤ p * v := hl (p, v) (by simp)
    have ih := ih (fun t ht => hl t (by simp [ht]))
    rw [dollarLoop] at hx ⊢
    generalize p * v = d at *
    have hmT : 0 < (m : K) * T := mul_pos (by exact_mod_cast hm) hT
    have hdue' : ∀ n : Nat, (n : K) * ((m : K) * T) ≤ c' + d → (n : K) * T ≤ c + d := by
      intro n hn
      by_cases hc : (n : K) * ((m : K) * T) ≤ c'
      · linarith [hdue n hc]
      · obtain ⟨n0, hn0, hlt, hge⟩ : ∃ n0 : Nat, n0 < n ∧ c' < ((n0 + 1 : Nat) : K) * ((m : K) * T) ∧
            (n0 : K) * ((m : K) * T) ≤ c' := by
          clear hn
          induction n with
          | zero => exact absurd (by simpa using h0) hc
          | succ n ihn =>
            by_cases hc' : (n : K) * ((m : K) * T) ≤ c'
            · exact ⟨n, by omega, not_le.mp hc, hc'⟩
            · obtain ⟨n0, h1, h2⟩ := ihn hc'
              exact ⟨n0, by omega, h2⟩
        have h1 := hdue n0 hge
        have hzle : z ≤ (n : Int) * ((m : Int) - 1) := by
          by_contra hcon
          have h2 : (n : Int) * ((m : Int) - 1) + 1 ≤ z := by omega
          have h3 : ((n0 : Int) + 1) * ((m : Int) - 1) ≤ (n : Int) * ((m : Int) - 1) :=
            mul_le_mul_of_nonneg_right (by omega) (by omega)
          have h4 : ((n0 : Int) + 1) * (m : Int) ≤ (n0 : Int) + z := by
            have : ((n0 : Int) + 1) * (m : Int) = ((n0 : Int) + 1) * ((m : Int) - 1) + n0 + 1 := by ring
            omega
          have h5 : (((n0 : Int) + 1) * (m : Int) : Int) * T ≤ (((n0 : Int) + z : Int) : K) * T :=
            mul_le_mul_of_nonneg_right (by exact_mod_cast h4) (le_of_lt hT)
          push_cast at h5 hlt
          have h6 : ((n0 : K) + 1) * ((m : K) * T) = ((n0 : K) + 1) * (m : K) * T := by ring
          rw [h6] at hlt
          have h7 : ((n0 : K) + z) * T = (n0 : K) * T + (z : K) * T := by ring
          linarith
        have h8 : (z : K) * T ≤ (((n : Int) * ((m : Int) - 1) : Int) : K) * T :=
          mul_le_mul_of_nonneg_right (by exact_mod_cast hzle) (le_of_lt hT)
        push_cast at h8
        have h9 : (n : K) * ((m : K) - 1) * T = (n : K) * ((m : K) * T) - (n : K) * T := by ring
        linarith
    by_cases h2 : c' + d ≥ (m : K) * T
    · have h1 : c + d ≥ T := by
        have := hdue' 1 (by simpa using h2)
        simpa using this
      rw [if_pos h2] at hx
      rw [if_pos h1]
      rcases List.mem_cons.mp hx with rfl | hx
      · simp
      · refine List.mem_cons_of_mem _ (ih (i + 1) (z + 1 - m) (c + d - T) (c' + d - (m : K) * T) (by linarith)
          (by rw [hz]; push_cast; ring) ?_ x hx)
        intro n hn
        have := hdue' (n + 1) (by push_cast; linarith [add_mul (n : K) 1 ((m : K) * T)])
        push_cast at this
        linarith [add_mul (n : K) 1 T]
    · rw [if_neg h2] at hx
      have hn0 : ∀ n : Nat, (n : K) * ((m : K) * T) ≤ c' + d → n = 0 := by
        intro n hn
        by_contra hne
        have : (1 : K) * ((m : K) * T) ≤ (n : K) * ((m : K) * T) :=
          mul_le_mul_of_nonneg_right (by exact_mod_cast (show 1 ≤ n by omega)) (le_of_lt hmT)
        exact h2 (by linarith)
      by_cases h1 : c + d ≥ T
      · rw [if_pos h1]
        refine List.mem_cons_of_mem _ (ih (i + 1) (z + 1) (c + d - T) (c' + d) (by linarith)
          (by rw [hz]; push_cast; ring) ?_ x hx)
        intro n hn
        rw [hn0 n hn]
        simpa using h1
      · rw [if_neg h1]
        exact ih (i + 1) z (c + d) (c' + d) (by linarith) (by rw [hz]; ring) hdue' x hx

/-! ## C160 -/

/-- **C160 (tick bars).** With a larger threshold there are no more tick bars, and the close with a given number comes
no earlier. -/
theorem C160_tick {α : Type} (ts : List α) (T T' : Int) (hT : T ≤ T') :
    Leads (tickBarIndexer ts T) (tickBarIndexer ts T') :=
  ⟨le_refl _, by simpa using tickLoop_leads T T' hT ts.tail 1 0 1 1 (by omega) (Or.inr (le_refl _))⟩

example : tickBarIndexer (List.range 9) 2 = [0, 1, 3, 5, 7] ∧ tickBarIndexer (List.range 9) 3 = [0, 2, 5, 8] := by decide

/-- **C160 (volume bars).** The same for volume bars of trades with non-negative volumes. -/
theorem C160_volume (v : List K) (hv : ∀ x ∈ v, 0 ≤ x) (T T' : K) (hT : T ≤ T') :
    Leads (volumeBarIndexer v T) (volumeBarIndexer v T') := by
  refine ⟨le_refl _, ?_⟩
  have h0 : 0 ≤ v.headD 0 := by
    cases v with
    | nil => exact le_refl _
    | cons a l => exact hv a (by simp)
  simpa using volumeLoop_leads T T' hT v.tail (fun x hx => hv x (List.mem_of_mem_tail hx)) 1 0 _ _ h0 (Or.inr (le_refl _))

example : (∀ x ∈ ([1, 2, 2, 3, 1, 4] : List ℚ), 0 ≤ x) ∧ volumeBarIndexer ([1, 2, 2, 3, 1, 4] : List ℚ) 3 = [0, 1, 3, 5] ∧
    volumeBarIndexer ([1, 2, 2, 3, 1, 4] : List ℚ) 5 = [0, 2, 5] := by decide +kernel

/-- **C160 (dollar bars).** The same for dollar bars, whatever the trades. -/
theorem C160_dollar (trades : List (K × K)) (T T' : K) (hT : T ≤ T') :
    Leads (dollarBarIndexer trades T) (dollarBarIndexer trades T') :=
  ⟨le_refl _, by simpa using dollarLoop_leads T T' hT trades.tail 1 0 0 _ _ (by simp)⟩

example : dollarBarIndexer ([(1, 1), (1, 7), (1, 1), (2, 2)] : List (ℚ × ℚ)) 4 = [0, 1, 2, 3] ∧
    dollarBarIndexer ([(1, 1), (1, 7), (1, 1), (2, 2)] : List (ℚ × ℚ)) 6 = [0, 1, 3] := by decide +kernel

/-- **C160 (CUSUM events).** The same for the events of the CUSUM filter with a constant threshold that is not
negative. -/
theorem C160_filter (log : K → K) (series : List K) (hs : 2 ≤ series.length) (h h' : K) (h0 : 0 ≤ h) (hh : h ≤ h') :
    ∃ a b, cusumFilter log series [h] = .ok a ∧ cusumFilter log series [h'] = .ok b ∧ Leads a b := by
  have key : ∀ t : K, cusumFilter log series [t] = .ok (cusumFilterLoop 1 0 0
      (((List.range' 1 (series.length - 1)).map (fun i => log (series.getD i 0 / series.getD (i - 1) 0))).map
        (fun r => (r, t)))) := by
    intro t
    unfold cusumFilter
    rw [if_neg (by omega), if_neg (by simp), List.map_map]
    simp only [List.length_singleton, if_true]
    congr 2
    apply List.map_congr_left
    intro i hi
    rw [List.mem_range'_1] at hi
    simp only [Function.comp_apply, Prod.mk.injEq, true_and]
    rw [List.getD_eq_getElem?_getD, List.getElem?_replicate, if_pos (by omega)]
    rfl
  refine ⟨_, _, key h, key h', ?_⟩
  have := cusumFilterLoop_leads h h' h0 hh
    ((List.range' 1 (series.length - 1)).map (fun i => log (series.getD i 0 / series.getD (i - 1) 0))) 1 0 0 0 0 0 0
    h0 (by linarith) (by linarith) (by linarith) (Or.inr (le_refl _)) (Or.inr (le_refl _))
  simpa using this

example : (cusumFilter (fun x : ℚ => x - 1) [1, 2, 1, 3, 3] [1/4]).toOption = some [1, 2, 3] ∧
    (cusumFilter (fun x : ℚ => x - 1) [1, 2, 1, 3, 3] [3/2]).toOption = some [3] := by decide +kernel

/-- **C160 (CUSUM bars).** The same for CUSUM bars when no two consecutive trades have the same timestamp and the
volatility column is constant: raising the multiplier or the floor never gives more bars. -/
theorem C160_cusum_bars (log : K → K) (ts : List Int) (prices : List K) (s : K) (floor mult floor' mult' : K)
    (ht : ts.length = prices.length) (hts : ∀ i, i + 1 < prices.length → ts.getD i 0 ≠ ts.getD (i + 1) 0)
    (h0 : 0 < max (mult * s) floor) (hh : max (mult * s) floor ≤ max (mult' * s) floor') :
    ∃ a b, cusumBarIndexer log ts prices (List.replicate prices.length (some s)) floor mult = .ok a ∧
      cusumBarIndexer log ts prices (List.replicate prices.length (some s)) floor' mult' = .ok b ∧ Leads a b := by
  have hfil : ∀ (n : Nat) (prev : Option K), forwardFill prev (List.replicate n (some s)) = List.replicate n (some s) := by
    intro n
    induction n with
    | zero => intro prev; rfl
    | succ n ih => intro prev; rw [List.replicate_succ, forwardFill, ih]
  have hf : firstNonNan (List.replicate prices.length (some s)) = 0 := by
    unfold firstNonNan
    cases prices.length with
    | zero => rfl
    | succ n => rw [List.replicate_succ]; simp [List.findIdx_cons]
  have key : ∀ fl mu : K, cusumBarIndexer log ts prices (List.replicate prices.length (some s)) fl mu =
      .ok (0 :: cusumBarLoop 1 0 0 (((List.range' 1 (prices.length - 1)).map
        (fun i => log (prices.getD i 0 / prices.getD (i - 1) 0))).map (fun r => ⟨r, false, max (mu * s) fl⟩))) := by
    intro fl mu
    unfold cusumBarIndexer
    rw [if_neg (by simp)]
    simp only [hf, hfil, Nat.zero_add, List.map_map]
    congr 3
    apply List.map_congr_left
    intro i hi
    rw [List.mem_range'_1] at hi
    have hg : (List.replicate prices.length (some s)).getD i none = some s := by
      rw [List.getD_eq_getElem?_getD, List.getElem?_replicate, if_pos (by omega)]; rfl
    unfold cusumTickAt
    simp only [hg, Function.comp_apply, CusumTick.mk.injEq, true_and, and_true, Option.isNone_some, Bool.or_false]
    by_cases hi' : i + 1 < prices.length
    · rw [decide_eq_false (hts i hi'), Bool.and_false]
    · rw [decide_eq_false hi', Bool.false_and]
  refine ⟨_, _, key floor mult, key floor' mult', le_refl _, ?_⟩
  have := cusumBarLoop_leads _ _ h0 hh
    ((List.range' 1 (prices.length - 1)).map (fun i => log (prices.getD i 0 / prices.getD (i - 1) 0))) 1 0 0 0 0 0 0
    h0 (by linarith) (by linarith) (by linarith) (Or.inr (le_refl _)) (Or.inr (le_refl _))
  simpa using this

example : (cusumBarIndexer (fun x : ℚ => x - 1) [1, 2, 3, 4, 5] [1, 2, 1, 3, 3] [some 1, some 1, some 1, some 1, some 1]
    0 (1/4)).toOption = some [0, 1, 2, 3] ∧
    (cusumBarIndexer (fun x : ℚ => x - 1) [1, 2, 3, 4, 5] [1, 2, 1, 3, 3] [some 1, some 1, some 1, some 1, some 1]
    0 (3/2)).toOption = some [0, 3] := by decide +kernel

/-- **C160 (blocks of equal timestamps).** Without that condition raising the threshold of CUSUM bars can give more bars:
the sums of both sides may pass the threshold within a block of equal timestamps, and then only one of them closes a
bar and is reset. -/
theorem C160_cusum_bars_blocks :
    let log : ℚ → ℚ := fun x => x - 1
    let ts : List Int := [0, 1, 1, 2]
    let returns : List ℚ := [1, 1 - 7/2, 1 + 3/2, 1 + 3/5]
    let prices : List ℚ := [1, -5/2, -25/4, -10]
    let s : List (Option ℚ) := [some 1, some 1, some 1, some 1]
    (∀ i, i < 3 → prices.getD (i + 1) 0 / prices.getD i 0 = returns.getD (i + 1) 0) ∧
    (cusumBarIndexer log ts prices s 0 (3/2)).toOption = some [0, 2] ∧
    (cusumBarIndexer log ts prices s 0 2).toOption = some [0, 2, 3] := by decide +kernel

/-! ## Nesting -/

/-- **C160 (tick bars are nested).** The closes of tick bars of `m · T` trades are closes of the tick bars of `T`
trades. -/
theorem C160_tick_nested {α : Type} (ts : List α) (hne : ts ≠ []) (T m : Nat) (hT : 2 ≤ T) (hm : 1 ≤ m) :
    ∀ x ∈ tickBarIndexer ts ((m * T : Nat) : Int), x ∈ tickBarIndexer ts (T : Int) := by
  have hmT : 2 ≤ m * T := le_trans hT (Nat.le_mul_of_pos_left T hm)
  rw [C03_tickBars_closed_form ts hne (m * T) hmT, C03_tickBars_closed_form ts hne T hT]
  intro x hx
  rcases List.mem_cons.mp hx with rfl | hx
  · simp
  · obtain ⟨k, hk, rfl⟩ := List.mem_map.mp hx
    rw [List.mem_range] at hk
    refine List.mem_cons_of_mem _ (List.mem_map.mpr ⟨(k + 1) * m - 1, ?_, ?_⟩)
    · rw [List.mem_range]
      have h1 : (k + 1) * (m * T) ≤ ts.length := (Nat.le_div_iff_mul_le (by omega)).mp hk
      have h2 : (k + 1) * m ≤ ts.length / T := (Nat.le_div_iff_mul_le (by omega)).mpr (by rw [Nat.mul_assoc]; exact h1)
      have h3 : 0 < (k + 1) * m := Nat.mul_pos (by omega) hm
      omega
    · have h3 : 0 < (k + 1) * m := Nat.mul_pos (by omega) hm
      rw [Nat.sub_add_cancel h3, Nat.mul_assoc]

example : tickBarIndexer (List.range 9) 2 = [0, 1, 3, 5, 7] ∧ tickBarIndexer (List.range 9) 4 = [0, 3, 7] := by decide

/-- **C160 (dollar bars are nested).** For trades of non-negative value, the closes of dollar bars of `m · T` are closes
of the dollar bars of `T`, also when single trades are worth many thresholds. -/
theorem C160_dollar_nested (trades : List (K × K)) (T : K) (hT : 0 < T) (m : Nat) (hm : 1 ≤ m)
    (hl : ∀ t ∈ trades, 0 ≤ t.1 * t.2) :
    ∀ x ∈ dollarBarIndexer trades ((m : K) * T), x ∈ dollarBarIndexer trades T := by
  intro x hx
  unfold dollarBarIndexer at hx ⊢
  rcases List.mem_cons.mp hx with rfl | hx
  · simp
  · refine List.mem_cons_of_mem _ (dollarLoop_nested T hT m hm trades.tail
      (fun t ht => hl t (List.mem_of_mem_tail ht)) 1 0 _ _ ?_ (by simp) ?_ x hx)
    · cases trades with
      | nil => simp
      | cons a l => exact hl a (by simp)
    · intro n hn
      refine le_trans (mul_le_mul_of_nonneg_left ?_ (Nat.cast_nonneg n)) hn
      exact le_mul_of_one_le_left (le_of_lt hT) (by exact_mod_cast hm)

example : (∀ t ∈ ([(1, 3), (1, 9), (1, 2), (1, 3), (1, 3)] : List (ℚ × ℚ)), 0 ≤ t.1 * t.2) ∧
    dollarBarIndexer ([(1, 3), (1, 9), (1, 1), (1, 0), (1, 0), (1, 3)] : List (ℚ × ℚ)) 4 = [0, 1, 2, 3, 5] ∧
    dollarBarIndexer ([(1, 3), (1, 9), (1, 1), (1, 0), (1, 0), (1, 3)] : List (ℚ × ℚ)) 8 = [0, 1, 5] := by decide +kernel

/-- **C160 (not nested).** Volume bars and CUSUM bars are not nested: doubling the threshold can move a close to a trade
that closed no bar before. -/
theorem C160_not_nested :
    volumeBarIndexer ([1, 2, 1, 2] : List ℚ) 2 = [0, 1, 3] ∧ volumeBarIndexer ([1, 2, 1, 2] : List ℚ) 4 = [0, 2] ∧
    (cusumBarIndexer (fun x : ℚ => x - 1) [0, 1, 2] [1, 5/2, 15/4] [some 1, some 1, some 1] 0 1).toOption = some [0, 1] ∧
    (cusumBarIndexer (fun x : ℚ => x - 1) [0, 1, 2] [1, 5/2, 15/4] [some 1, some 1, some 1] 0 2).toOption =
      some [0, 2] := by
  decide +kernel

end FinML

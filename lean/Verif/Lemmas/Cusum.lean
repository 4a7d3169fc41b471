/-
Helper lemmas: the recursive CUSUM state equals the suffix-sum specification.
-/
import Verif.Spec.Cusum
import Verif.Model.Indexers
import Verif.Model.CusumFilter

set_option linter.unusedSectionVars false

namespace FinML

variable {K : Type} [Field K] [LinearOrder K] [IsStrictOrderedRing K]

theorem maxSuffix_nil : maxSuffix ([] : List K) = 0 := by simp [maxSuffix]
theorem minSuffix_nil : minSuffix ([] : List K) = 0 := by simp [minSuffix]

theorem maxSuffix_cons (a : K) (l : List K) : maxSuffix (a :: l) = max (a + l.sum) (maxSuffix l) := by
  simp [maxSuffix]

theorem minSuffix_cons (a : K) (l : List K) : minSuffix (a :: l) = min (a + l.sum) (minSuffix l) := by
  simp [minSuffix]

theorem maxSuffix_concat (l : List K) (x : K) : maxSuffix (l ++ [x]) = max 0 (maxSuffix l + x) := by
  induction l with
  | nil => simp [maxSuffix_cons, maxSuffix_nil, max_comm]
  | cons a l ih =>
    rw [List.cons_append, maxSuffix_cons, ih, maxSuffix_cons, max_left_comm, ← max_add_add_right]
    simp [add_assoc]

theorem minSuffix_concat (l : List K) (x : K) : minSuffix (l ++ [x]) = min 0 (minSuffix l + x) := by
  induction l with
  | nil => simp [minSuffix_cons, minSuffix_nil, min_comm]
  | cons a l ih =>
    rw [List.cons_append, minSuffix_cons, ih, minSuffix_cons, min_left_comm, ← min_add_add_right]
    simp [add_assoc]

omit [LinearOrder K] [IsStrictOrderedRing K] in
theorem retsBetween_self (r : Nat → K) (a : Nat) : retsBetween r a a = [] := by simp [retsBetween]

omit [LinearOrder K] [IsStrictOrderedRing K] in
theorem retsBetween_succ (r : Nat → K) (a i : Nat) (h : a ≤ i) :
    retsBetween r a (i + 1) = retsBetween r a i ++ [r (i + 1)] := by
  unfold retsBetween
  have : i + 1 - a = (i - a) + 1 := by omega
  rw [this, List.range'_1_concat, List.map_append]
  simp
  congr 1; omega

theorem lastMark_le {c : List (Nat × Bool)} {s : Bool} {f i : Nat} (hf : f < i) :
    lastMark c s f i < i := by
  unfold lastMark
  induction c with
  | nil => simpa using hf
  | cons p c ih =>
    rw [List.filter_cons]
    split
    · rename_i h
      simp at h
      simp only [List.map_cons, List.foldr_cons]
      exact max_lt h.2 ih
    · exact ih

theorem lastMark_append_ge (pre c : List (Nat × Bool)) (s : Bool) (f i : Nat)
    (hc : ∀ p ∈ c, i ≤ p.1) : lastMark (pre ++ c) s f i = lastMark pre s f i := by
  unfold lastMark
  rw [List.filter_append]
  have : c.filter (fun p => decide (p.2 = s) && decide (p.1 < i)) = [] := by
    rw [List.filter_eq_nil_iff]; intro p hp; have := hc p hp; simp; intro _; omega
  rw [this, List.append_nil]

theorem lastMark_succ (pre : List (Nat × Bool)) (s : Bool) (f i : Nat)
    (hp : ∀ p ∈ pre, p.1 < i) : lastMark pre s f (i + 1) = lastMark pre s f i := by
  unfold lastMark
  congr 2
  apply List.filter_congr
  intro p h
  have := hp p h
  have e1 : decide (p.1 < i + 1) = true := by simp; omega
  have e2 : decide (p.1 < i) = true := by simp; omega
  rw [e1, e2]

theorem lastMark_concat_same (pre : List (Nat × Bool)) (s : Bool) (f i : Nat) (hf : f < i)
    (hp : ∀ p ∈ pre, p.1 < i) : lastMark (pre ++ [(i, s)]) s f (i + 1) = i := by
  unfold lastMark
  rw [List.filter_append, List.map_append, List.foldr_append]
  have h1 : ([(i, s)].filter (fun p => decide (p.2 = s) && decide (p.1 < i + 1))) = [(i, s)] := by
    simp
  rw [h1]
  simp only [List.map_cons, List.map_nil, List.foldr_cons, List.foldr_nil]
  rw [max_eq_left (le_of_lt hf)]
  clear h1 hf
  induction pre with
  | nil => simp
  | cons p pre ih =>
    rw [List.filter_cons]
    have hp1 := hp p (by simp)
    split
    · simp only [List.map_cons, List.foldr_cons]
      rw [ih (fun q hq => hp q (by simp [hq]))]
      omega
    · exact ih (fun q hq => hp q (by simp [hq]))

theorem lastMark_concat_other (pre : List (Nat × Bool)) (s : Bool) (f i : Nat)
    (hp : ∀ p ∈ pre, p.1 < i) : lastMark (pre ++ [(i, !s)]) s f (i + 1) = lastMark pre s f i := by
  rw [← lastMark_succ pre s f i hp]
  unfold lastMark
  rw [List.filter_append]
  have : [(i, !s)].filter (fun p => decide (p.2 = s) && decide (p.1 < i + 1)) = [] := by
    cases s <;> simp
  rw [this, List.append_nil]

/-! ### CUSUM bars -/

/-- The bar loop, with each close tagged by its side (`true` = positive). -/
def cusumBarLoopT : Nat → K → K → List (CusumTick K) → List (Nat × Bool)
  | _, _, _, [] => []
  | i, sPos, sNeg, t :: rest =>
    let sPos := max 0 (sPos + t.ret)
    let sNeg := min 0 (sNeg + t.ret)
    if t.inBlock then cusumBarLoopT (i + 1) sPos sNeg rest
    else if sPos ≥ t.lam then (i, true) :: cusumBarLoopT (i + 1) 0 sNeg rest
    else if sNeg ≤ -t.lam then (i, false) :: cusumBarLoopT (i + 1) sPos 0 rest
    else cusumBarLoopT (i + 1) sPos sNeg rest

omit [IsStrictOrderedRing K] in
theorem cusumBarLoop_eq (l : List (CusumTick K)) (i : Nat) (p q : K) :
    cusumBarLoop i p q l = (cusumBarLoopT i p q l).map Prod.fst := by
  induction l generalizing i p q with
  | nil => rfl
  | cons t l ih =>
    simp only [cusumBarLoop, cusumBarLoopT]
    split
    · exact ih _ _ _
    · split
      · rw [ih]; rfl
      · split
        · rw [ih]; rfl
        · exact ih _ _ _

omit [IsStrictOrderedRing K] in
theorem cusumBarLoopT_mem (l : List (CusumTick K)) (i : Nat) (p q : K) :
    ∀ x ∈ cusumBarLoopT i p q l, i ≤ x.1 ∧ x.1 < i + l.length := by
  induction l generalizing i p q with
  | nil => simp [cusumBarLoopT]
  | cons t l ih =>
    intro x hx
    simp only [cusumBarLoopT] at hx
    have go : ∀ p q, x ∈ cusumBarLoopT (i+1) p q l → i ≤ x.1 ∧ x.1 < i + (t :: l).length := by
      intro p q h
      have := ih (i+1) p q x h
      simp; omega
    split at hx
    · exact go _ _ hx
    · split at hx
      · rcases List.mem_cons.mp hx with rfl | hx
        · simp
        · exact go _ _ hx
      · split at hx
        · rcases List.mem_cons.mp hx with rfl | hx
          · simp
          · exact go _ _ hx
        · exact go _ _ hx

omit [IsStrictOrderedRing K] in
theorem cusumBarLoopT_sorted (l : List (CusumTick K)) (i : Nat) (p q : K) :
    ((cusumBarLoopT i p q l).map Prod.fst).Pairwise (· < ·) := by
  induction l generalizing i p q with
  | nil => simp [cusumBarLoopT]
  | cons t l ih =>
    simp only [cusumBarLoopT]
    have go : ∀ s p q, (((i, s) :: cusumBarLoopT (i+1) p q l).map Prod.fst).Pairwise (· < ·) := by
      intro s p q
      rw [List.map_cons]
      refine List.pairwise_cons.mpr ⟨?_, ih _ _ _⟩
      intro x hx
      obtain ⟨y, hy, rfl⟩ := List.mem_map.mp hx
      have := cusumBarLoopT_mem l (i+1) p q y hy
      omega
    split
    · exact ih _ _ _
    · split
      · exact go _ _ _
      · split
        · exact go _ _ _
        · exact ih _ _ _

theorem cusumBarLoopT_char (tick : Nat → CusumTick K) (f n : Nat) (i m : Nat) (hin : i + m = n) (hf : f < i)
    (p q : K) (pre : List (Nat × Bool)) (hpre : ∀ x ∈ pre, x.1 < i)
    (hp : p = maxSuffix (retsBetween (fun k => (tick k).ret) (lastMark pre true f i) (i - 1)))
    (hq : q = minSuffix (retsBetween (fun k => (tick k).ret) (lastMark pre false f i) (i - 1))) :
    let c := pre ++ cusumBarLoopT i p q ((List.range' i m).map tick)
    let r := fun k => (tick k).ret
    ∀ j, i ≤ j → j < n →
      (((j, true) ∈ c ↔ (tick j).inBlock = false ∧ (tick j).lam ≤ upSum r c f j) ∧
       ((j, false) ∈ c ↔ (tick j).inBlock = false ∧ upSum r c f j < (tick j).lam ∧
          downSum r c f j ≤ -(tick j).lam)) := by
  induction m generalizing i p q pre with
  | zero => intro c r j h1 h2; omega
  | succ m ih =>
    intro c r j hij hjn
    have hno : ∀ s, (i, s) ∉ pre := fun s h => by have := hpre _ h; simp at this
    have hlT := lastMark_le (c := pre) (s := true) hf
    have hlF := lastMark_le (c := pre) (s := false) hf
    have hi1 : i - 1 + 1 = i := by omega
    have hp' : max 0 (p + (tick i).ret) =
        maxSuffix (retsBetween (fun k => (tick k).ret) (lastMark pre true f i) i) := by
      have := retsBetween_succ (fun k => (tick k).ret) (lastMark pre true f i) (i - 1) (by omega)
      rw [hi1] at this
      rw [this, maxSuffix_concat, ← hp]
    have hq' : min 0 (q + (tick i).ret) =
        minSuffix (retsBetween (fun k => (tick k).ret) (lastMark pre false f i) i) := by
      have := retsBetween_succ (fun k => (tick k).ret) (lastMark pre false f i) (i - 1) (by omega)
      rw [hi1] at this
      rw [this, minSuffix_concat, ← hq]
    have hcdef : c = pre ++ cusumBarLoopT i p q (tick i :: (List.range' (i+1) m).map tick) := rfl
    have hmem := cusumBarLoopT_mem (tick i :: (List.range' (i+1) m).map tick) i p q
    have hupi : upSum r c f i = max 0 (p + (tick i).ret) := by
      unfold upSum
      rw [hcdef, lastMark_append_ge _ _ _ _ _ (fun x hx => (hmem x hx).1), hp']
    have hdni : downSum r c f i = min 0 (q + (tick i).ret) := by
      unfold downSum
      rw [hcdef, lastMark_append_ge _ _ _ _ _ (fun x hx => (hmem x hx).1), hq']
    have hpre1 : ∀ x ∈ pre, x.1 < i + 1 := fun x hx => by have := hpre x hx; omega
    have hnext : ∀ s p' q', (i, s) ∉ cusumBarLoopT (i+1) p' q' ((List.range' (i+1) m).map tick) := by
      intro s p' q' h
      have := cusumBarLoopT_mem _ _ _ _ _ h
      simp at this
    -- generic continuation
    have cont : ∀ (pre' : List (Nat × Bool)) (p' q' : K),
        (∀ x ∈ pre', x.1 < i + 1) →
        p' = maxSuffix (retsBetween (fun k => (tick k).ret) (lastMark pre' true f (i+1)) i) →
        q' = minSuffix (retsBetween (fun k => (tick k).ret) (lastMark pre' false f (i+1)) i) →
        c = pre' ++ cusumBarLoopT (i+1) p' q' ((List.range' (i+1) m).map tick) →
        i < j → (((j, true) ∈ c ↔ (tick j).inBlock = false ∧ (tick j).lam ≤ upSum r c f j) ∧
       ((j, false) ∈ c ↔ (tick j).inBlock = false ∧ upSum r c f j < (tick j).lam ∧
          downSum r c f j ≤ -(tick j).lam)) := by
      intro pre' p' q' h1 h2 h3 h4 h5
      have := ih (i+1) (by omega) (by omega) p' q' pre' h1 (by simpa using h2) (by simpa using h3)
        j (by omega) hjn
      rw [h4]; exact this
    simp only [cusumBarLoopT] at hcdef
    split at hcdef
    · rename_i hb
      rcases Nat.eq_or_lt_of_le hij with rfl | hlt
      · have h1 : ∀ s, (i, s) ∉ c := by
          intro s h; rw [hcdef] at h
          rcases List.mem_append.mp h with h | h
          · exact hno _ h
          · exact hnext _ _ _ h
        simp [h1, hb]
      · refine cont pre _ _ hpre1 ?_ ?_ hcdef hlt
        · rw [lastMark_succ _ _ _ _ hpre]; exact hp'
        · rw [lastMark_succ _ _ _ _ hpre]; exact hq'
    · rename_i hb
      split at hcdef
      · rename_i hup
        rcases Nat.eq_or_lt_of_le hij with rfl | hlt
        · have h1 : (i, true) ∈ c := by rw [hcdef]; simp
          have h2 : (i, false) ∉ c := by
            intro h; rw [hcdef] at h
            rcases List.mem_append.mp h with h | h
            · exact hno _ h
            · rcases List.mem_cons.mp h with h | h
              · simp at h
              · exact hnext _ _ _ h
          rw [hupi, hdni]
          simp only [h1, h2, true_iff, false_iff]
          refine ⟨⟨by simpa using hb, hup⟩, ?_⟩
          rintro ⟨_, h, _⟩; exact absurd h (not_lt.mpr hup)
        · refine cont (pre ++ [(i, true)]) 0 (min 0 (q + (tick i).ret)) ?_ ?_ ?_ (by rw [hcdef]; simp) hlt
          · intro x hx; rcases List.mem_append.mp hx with hx | hx
            · exact hpre1 x hx
            · simp at hx; rw [hx]; simp
          · rw [lastMark_concat_same _ _ _ _ hf hpre, retsBetween_self, maxSuffix_nil]
          · have := lastMark_concat_other pre false f i hpre
            rw [Bool.not_false] at this
            rw [this]; exact hq'
      · rename_i hup
        split at hcdef
        · rename_i hdn
          rcases Nat.eq_or_lt_of_le hij with rfl | hlt
          · have h1 : (i, false) ∈ c := by rw [hcdef]; simp
            have h2 : (i, true) ∉ c := by
              intro h; rw [hcdef] at h
              rcases List.mem_append.mp h with h | h
              · exact hno _ h
              · rcases List.mem_cons.mp h with h | h
                · simp at h
                · exact hnext _ _ _ h
            rw [hupi, hdni]
            simp only [h1, h2, true_iff, false_iff]
            refine ⟨?_, by simpa using hb, not_le.mp hup, hdn⟩
            rintro ⟨_, h⟩; exact hup h
          · refine cont (pre ++ [(i, false)]) (max 0 (p + (tick i).ret)) 0 ?_ ?_ ?_ (by rw [hcdef]; simp) hlt
            · intro x hx; rcases List.mem_append.mp hx with hx | hx
              · exact hpre1 x hx
              · simp at hx; rw [hx]; simp
            · have := lastMark_concat_other pre true f i hpre
              rw [Bool.not_true] at this
              rw [this]; exact hp'
            · rw [lastMark_concat_same _ _ _ _ hf hpre, retsBetween_self, minSuffix_nil]
        · rename_i hdn
          rcases Nat.eq_or_lt_of_le hij with rfl | hlt
          · have h1 : ∀ s, (i, s) ∉ c := by
              intro s h; rw [hcdef] at h
              rcases List.mem_append.mp h with h | h
              · exact hno _ h
              · exact hnext _ _ _ h
            rw [hupi, hdni]
            simp only [h1, false_iff]
            exact ⟨fun h => hup h.2, fun h => hdn h.2.2⟩
          · refine cont pre _ _ hpre1 ?_ ?_ hcdef hlt
            · rw [lastMark_succ _ _ _ _ hpre]; exact hp'
            · rw [lastMark_succ _ _ _ _ hpre]; exact hq'

/-! ### CUSUM filter -/

/-- The filter loop, with each event tagged by its side. -/
def cusumFilterLoopT : Nat → K → K → List (K × K) → List (Nat × Bool)
  | _, _, _, [] => []
  | i, sPos, sNeg, (ret, thrs) :: rest =>
    let sPos := max 0 (sPos + ret)
    let sNeg := min 0 (sNeg + ret)
    if sNeg < -thrs then (i, false) :: cusumFilterLoopT (i + 1) sPos 0 rest
    else if sPos > thrs then (i, true) :: cusumFilterLoopT (i + 1) 0 sNeg rest
    else cusumFilterLoopT (i + 1) sPos sNeg rest

omit [IsStrictOrderedRing K] in
theorem cusumFilterLoop_eq (l : List (K × K)) (i : Nat) (p q : K) :
    cusumFilterLoop i p q l = (cusumFilterLoopT i p q l).map Prod.fst := by
  induction l generalizing i p q with
  | nil => rfl
  | cons t l ih =>
    obtain ⟨a, b⟩ := t
    simp only [cusumFilterLoop, cusumFilterLoopT]
    split
    · rw [ih]; rfl
    · split
      · rw [ih]; rfl
      · exact ih _ _ _

omit [IsStrictOrderedRing K] in
theorem cusumFilterLoopT_mem (l : List (K × K)) (i : Nat) (p q : K) :
    ∀ x ∈ cusumFilterLoopT i p q l, i ≤ x.1 ∧ x.1 < i + l.length := by
  induction l generalizing i p q with
  | nil => simp [cusumFilterLoopT]
  | cons t l ih =>
    obtain ⟨a, b⟩ := t
    intro x hx
    simp only [cusumFilterLoopT] at hx
    have go : ∀ p q, x ∈ cusumFilterLoopT (i+1) p q l → i ≤ x.1 ∧ x.1 < i + ((a, b) :: l).length := by
      intro p q h
      have := ih (i+1) p q x h
      simp; omega
    split at hx
    · rcases List.mem_cons.mp hx with rfl | hx
      · simp
      · exact go _ _ hx
    · split at hx
      · rcases List.mem_cons.mp hx with rfl | hx
        · simp
        · exact go _ _ hx
      · exact go _ _ hx

omit [IsStrictOrderedRing K] in
theorem cusumFilterLoopT_sorted (l : List (K × K)) (i : Nat) (p q : K) :
    ((cusumFilterLoopT i p q l).map Prod.fst).Pairwise (· < ·) := by
  induction l generalizing i p q with
  | nil => simp [cusumFilterLoopT]
  | cons t l ih =>
    obtain ⟨a, b⟩ := t
    simp only [cusumFilterLoopT]
    have go : ∀ s p q, (((i, s) :: cusumFilterLoopT (i+1) p q l).map Prod.fst).Pairwise (· < ·) := by
      intro s p q
      rw [List.map_cons]
      refine List.pairwise_cons.mpr ⟨?_, ih _ _ _⟩
      intro x hx
      obtain ⟨y, hy, rfl⟩ := List.mem_map.mp hx
      have := cusumFilterLoopT_mem l (i+1) p q y hy
      omega
    split
    · exact go _ _ _
    · split
      · exact go _ _ _
      · exact ih _ _ _

theorem cusumFilterLoopT_char (tick : Nat → K × K) (f n : Nat) (i m : Nat) (hin : i + m = n) (hf : f < i)
    (p q : K) (pre : List (Nat × Bool)) (hpre : ∀ x ∈ pre, x.1 < i)
    (hp : p = maxSuffix (retsBetween (fun k => (tick k).1) (lastMark pre true f i) (i - 1)))
    (hq : q = minSuffix (retsBetween (fun k => (tick k).1) (lastMark pre false f i) (i - 1))) :
    let c := pre ++ cusumFilterLoopT i p q ((List.range' i m).map tick)
    let r := fun k => (tick k).1
    ∀ j, i ≤ j → j < n →
      (((j, false) ∈ c ↔ downSum r c f j < -(tick j).2) ∧
       ((j, true) ∈ c ↔ -(tick j).2 ≤ downSum r c f j ∧ (tick j).2 < upSum r c f j)) := by
  induction m generalizing i p q pre with
  | zero => intro c r j h1 h2; omega
  | succ m ih =>
    intro c r j hij hjn
    have hno : ∀ s, (i, s) ∉ pre := fun s h => by have := hpre _ h; simp at this
    have hlT := lastMark_le (c := pre) (s := true) hf
    have hlF := lastMark_le (c := pre) (s := false) hf
    have hi1 : i - 1 + 1 = i := by omega
    have hp' : max 0 (p + (tick i).1) =
        maxSuffix (retsBetween (fun k => (tick k).1) (lastMark pre true f i) i) := by
      have := retsBetween_succ (fun k => (tick k).1) (lastMark pre true f i) (i - 1) (by omega)
      rw [hi1] at this
      rw [this, maxSuffix_concat, ← hp]
    have hq' : min 0 (q + (tick i).1) =
        minSuffix (retsBetween (fun k => (tick k).1) (lastMark pre false f i) i) := by
      have := retsBetween_succ (fun k => (tick k).1) (lastMark pre false f i) (i - 1) (by omega)
      rw [hi1] at this
      rw [this, minSuffix_concat, ← hq]
    have hcdef : c = pre ++ cusumFilterLoopT i p q (tick i :: (List.range' (i+1) m).map tick) := rfl
    have hmem := cusumFilterLoopT_mem (tick i :: (List.range' (i+1) m).map tick) i p q
    have hupi : upSum r c f i = max 0 (p + (tick i).1) := by
      unfold upSum
      rw [hcdef, lastMark_append_ge _ _ _ _ _ (fun x hx => (hmem x hx).1), hp']
    have hdni : downSum r c f i = min 0 (q + (tick i).1) := by
      unfold downSum
      rw [hcdef, lastMark_append_ge _ _ _ _ _ (fun x hx => (hmem x hx).1), hq']
    have hpre1 : ∀ x ∈ pre, x.1 < i + 1 := fun x hx => by have := hpre x hx; omega
    have hnext : ∀ s p' q', (i, s) ∉ cusumFilterLoopT (i+1) p' q' ((List.range' (i+1) m).map tick) := by
      intro s p' q' h
      have := cusumFilterLoopT_mem _ _ _ _ _ h
      simp at this
    have cont : ∀ (pre' : List (Nat × Bool)) (p' q' : K),
        (∀ x ∈ pre', x.1 < i + 1) →
        p' = maxSuffix (retsBetween (fun k => (tick k).1) (lastMark pre' true f (i+1)) i) →
        q' = minSuffix (retsBetween (fun k => (tick k).1) (lastMark pre' false f (i+1)) i) →
        c = pre' ++ cusumFilterLoopT (i+1) p' q' ((List.range' (i+1) m).map tick) →
        i < j → (((j, false) ∈ c ↔ downSum r c f j < -(tick j).2) ∧
       ((j, true) ∈ c ↔ -(tick j).2 ≤ downSum r c f j ∧ (tick j).2 < upSum r c f j)) := by
      intro pre' p' q' h1 h2 h3 h4 h5
      have := ih (i+1) (by omega) (by omega) p' q' pre' h1 (by simpa using h2) (by simpa using h3)
        j (by omega) hjn
      rw [h4]; exact this
    simp only [cusumFilterLoopT] at hcdef
    split at hcdef
    · rename_i hdn
      rcases Nat.eq_or_lt_of_le hij with rfl | hlt
      · have h1 : (i, false) ∈ c := by rw [hcdef]; simp
        have h2 : (i, true) ∉ c := by
          intro h; rw [hcdef] at h
          rcases List.mem_append.mp h with h | h
          · exact hno _ h
          · rcases List.mem_cons.mp h with h | h
            · simp at h
            · exact hnext _ _ _ h
        rw [hupi, hdni]
        simp only [h1, h2, true_iff, false_iff]
        refine ⟨hdn, ?_⟩
        rintro ⟨h, _⟩; exact absurd hdn (not_lt.mpr h)
      · refine cont (pre ++ [(i, false)]) (max 0 (p + (tick i).1)) 0 ?_ ?_ ?_ (by rw [hcdef]; simp) hlt
        · intro x hx; rcases List.mem_append.mp hx with hx | hx
          · exact hpre1 x hx
          · simp at hx; rw [hx]; simp
        · have := lastMark_concat_other pre true f i hpre
          rw [Bool.not_true] at this
          rw [this]; exact hp'
        · rw [lastMark_concat_same _ _ _ _ hf hpre, retsBetween_self, minSuffix_nil]
    · rename_i hdn
      split at hcdef
      · rename_i hup
        rcases Nat.eq_or_lt_of_le hij with rfl | hlt
        · have h1 : (i, true) ∈ c := by rw [hcdef]; simp
          have h2 : (i, false) ∉ c := by
            intro h; rw [hcdef] at h
            rcases List.mem_append.mp h with h | h
            · exact hno _ h
            · rcases List.mem_cons.mp h with h | h
              · simp at h
              · exact hnext _ _ _ h
          rw [hupi, hdni]
          simp only [h1, h2, true_iff, false_iff]
          exact ⟨hdn, not_lt.mp hdn, hup⟩
        · refine cont (pre ++ [(i, true)]) 0 (min 0 (q + (tick i).1)) ?_ ?_ ?_ (by rw [hcdef]; simp) hlt
          · intro x hx; rcases List.mem_append.mp hx with hx | hx
            · exact hpre1 x hx
            · simp at hx; rw [hx]; simp
          · rw [lastMark_concat_same _ _ _ _ hf hpre, retsBetween_self, maxSuffix_nil]
          · have := lastMark_concat_other pre false f i hpre
            rw [Bool.not_false] at this
            rw [this]; exact hq'
      · rename_i hup
        rcases Nat.eq_or_lt_of_le hij with rfl | hlt
        · have h1 : ∀ s, (i, s) ∉ c := by
            intro s h; rw [hcdef] at h
            rcases List.mem_append.mp h with h | h
            · exact hno _ h
            · exact hnext _ _ _ h
          rw [hupi, hdni]
          simp only [h1, false_iff]
          exact ⟨hdn, fun h => hup h.2⟩
        · refine cont pre _ _ hpre1 ?_ ?_ hcdef hlt
          · rw [lastMark_succ _ _ _ _ hpre]; exact hp'
          · rw [lastMark_succ _ _ _ _ hpre]; exact hq'

end FinML

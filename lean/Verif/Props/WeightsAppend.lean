/-
C129: what appending events does to the time-decay and final weights of the earlier events.
-/
import Verif.Props.Weights

set_option linter.unusedSectionVars false

namespace FinML

variable {K : Type} [Field K] [LinearOrder K] [IsStrictOrderedRing K]

theorem take_append_sum (u v : List K) (k : Nat) (hk : k < u.length) : ((u ++ v).take (k + 1)).sum = (u.take (k + 1)).sum := by
  rw [List.take_append_of_le_length (by omega)]

/-- **C129.** Time decay.  `u` are the uniqueness values of the old events, `v` those of the new ones.  No old event gains weight; and
of two old events the older one gains relative to the younger one if `last_weight` is not negative, they keep their ratio if
`last_weight` is 0, and the older one loses if `last_weight` is negative. -/
theorem C129_decay (u v : List K) (lw : K) (hu : ∀ x ∈ u, 0 ≤ x) (hv : ∀ x ∈ v, 0 ≤ x) (hS : 0 < u.sum) (h1 : -1 < lw) (h2 : lw ≤ 1) :
    ∃ w w' : List K, timeDecay u lw = .ok w ∧ timeDecay (u ++ v) lw = .ok w' ∧ w.length = u.length ∧ w'.length = u.length + v.length ∧
      ∀ i j : Nat, i ≤ j → ∀ ai aj bi bj : K, w[i]? = some ai → w[j]? = some aj → w'[i]? = some bi → w'[j]? = some bj →
        bi ≤ ai ∧ (0 ≤ lw → ai * bj ≤ bi * aj) ∧ (lw = 0 → ai * bj = bi * aj) ∧ (lw < 0 → bi * aj ≤ ai * bj) := by
  have hV : 0 ≤ v.sum := List.sum_nonneg hv
  have hT : (u ++ v).sum = u.sum + v.sum := List.sum_append
  obtain ⟨w, e, hl, hg⟩ := C29_closed_form h1 h2 hS.ne'
  obtain ⟨w', e', hl', hg'⟩ := C29_closed_form (u := u ++ v) h1 h2 (by rw [hT]; linarith)
  refine ⟨w, w', e, e', hl, by rw [hl', List.length_append], ?_⟩
  intro i j hij ai aj bi bj hai haj hbi hbj
  have hj : j < u.length := by rw [← hl]; exact (List.getElem?_eq_some_iff.mp haj).1
  have hi : i < u.length := by omega
  rw [hg i hi] at hai
  rw [hg j hj] at haj
  rw [hg' i (by rw [List.length_append]; omega), take_append_sum u v i hi, hT] at hbi
  rw [hg' j (by rw [List.length_append]; omega), take_append_sum u v j hj, hT] at hbj
  have hx : (u.take (i + 1)).sum ≤ (u.take (j + 1)).sum := sum_take_le hu (by omega)
  have hxS : (u.take (j + 1)).sum ≤ u.sum := by
    have := sum_take_le hu (show j + 1 ≤ max (j + 1) u.length by omega)
    rwa [List.take_of_length_le (show u.length ≤ max (j + 1) u.length by omega)] at this
  have hx0 : 0 ≤ (u.take (i + 1)).sum := List.sum_nonneg (fun y hy => hu y (List.mem_of_mem_take hy))
  obtain ⟨x, hxe⟩ : ∃ x, x = (u.take (i + 1)).sum := ⟨_, rfl⟩
  obtain ⟨y, hye⟩ : ∃ y, y = (u.take (j + 1)).sum := ⟨_, rfl⟩
  obtain ⟨S, hSe⟩ : ∃ S, S = u.sum := ⟨_, rfl⟩
  obtain ⟨V, hVe⟩ : ∃ V, V = v.sum := ⟨_, rfl⟩
  rw [← hxe, ← hSe] at hai
  rw [← hye, ← hSe] at haj
  rw [← hxe, ← hSe, ← hVe] at hbi
  rw [← hye, ← hSe, ← hVe] at hbj
  rw [← hxe, ← hye] at hx
  rw [← hye, ← hSe] at hxS
  rw [← hxe] at hx0
  rw [← hSe] at hS
  rw [← hVe] at hV
  have hSV : 0 < S + V := by linarith
  rcases le_or_gt 0 lw with h0 | h0
  · rw [if_pos h0] at hai haj hbi hbj
    have ea : ∀ z, 1 - (1 - lw) * (S - z) / S = (lw * S + (1 - lw) * z) / S := by intro z; field_simp; ring
    have eb : ∀ z, 1 - (1 - lw) * (S + V - z) / (S + V) = (lw * (S + V) + (1 - lw) * z) / (S + V) := by intro z; field_simp; ring
    rw [ea, Option.some.injEq] at hai haj
    rw [eb, Option.some.injEq] at hbi hbj
    subst hai haj hbi hbj
    have key : (lw * S + (1 - lw) * x) * (lw * (S + V) + (1 - lw) * y) + lw * (1 - lw) * (V * (y - x)) =
        (lw * (S + V) + (1 - lw) * x) * (lw * S + (1 - lw) * y) := by ring
    have hnn : 0 ≤ lw * (1 - lw) * (V * (y - x)) := by
      have : 0 ≤ 1 - lw := by linarith
      have : 0 ≤ y - x := by linarith
      positivity
    refine ⟨?_, fun _ => ?_, fun hz => ?_, fun h => absurd h (not_lt.mpr h0)⟩
    · rw [div_le_div_iff₀ hSV hS]
      have : 0 ≤ (1 - lw) * (x * V) := by
        have : 0 ≤ 1 - lw := by linarith
        positivity
      nlinarith
    · rw [div_mul_div_comm, div_mul_div_comm, mul_comm (S + V) S, div_le_div_iff_of_pos_right (by positivity)]
      linarith
    · rw [div_mul_div_comm, div_mul_div_comm, mul_comm (S + V) S]
      congr 1
      rw [hz] at key ⊢
      linarith
  · rw [if_neg (not_le.mpr h0)] at hai haj hbi hbj
    have hc : 0 < 1 + lw := by linarith
    have ea : ∀ z, 1 - (S - z) / ((1 + lw) * S) = (z + lw * S) / ((1 + lw) * S) := by intro z; field_simp; ring
    have eb : ∀ z, 1 - (S + V - z) / ((1 + lw) * (S + V)) = (z + lw * (S + V)) / ((1 + lw) * (S + V)) := by intro z; field_simp; ring
    rw [ea, Option.some.injEq] at hai haj
    rw [eb, Option.some.injEq] at hbi hbj
    have hle : (x + lw * (S + V)) / ((1 + lw) * (S + V)) ≤ (x + lw * S) / ((1 + lw) * S) := by
      rw [div_le_div_iff₀ (by positivity) (by positivity)]
      have : 0 ≤ (1 + lw) * (x * V) := by positivity
      nlinarith
    refine ⟨?_, fun h => absurd h (not_le.mpr h0), fun h => absurd h h0.ne, fun _ => ?_⟩
    · rw [← hai, ← hbi]; exact max_le_max hle le_rfl
    · have nai : 0 ≤ ai := by rw [← hai]; exact le_max_right _ _
      have nbj : 0 ≤ bj := by rw [← hbj]; exact le_max_right _ _
      rcases le_or_gt (x + lw * (S + V)) 0 with hn | hp
      · have : bi = 0 := by
          rw [← hbi]; exact max_eq_right (div_nonpos_of_nonpos_of_nonneg hn (by positivity))
        rw [this, zero_mul]; positivity
      · have p1 : 0 < x + lw * S := by nlinarith
        have p2 : 0 < y + lw * (S + V) := by linarith
        have p3 : 0 < y + lw * S := by linarith
        rw [max_eq_left (div_nonneg p1.le (by positivity))] at hai
        rw [max_eq_left (div_nonneg p3.le (by positivity))] at haj
        rw [max_eq_left (div_nonneg hp.le (by positivity))] at hbi
        rw [max_eq_left (div_nonneg p2.le (by positivity))] at hbj
        rw [← hai, ← haj, ← hbi, ← hbj, div_mul_div_comm, div_mul_div_comm, mul_comm ((1 + lw) * (S + V)) ((1 + lw) * S),
          div_le_div_iff_of_pos_right (by positivity)]
        have hq : 0 ≤ V * (y - x) := mul_nonneg hV (by linarith)
        have : lw * (V * (y - x)) ≤ 0 := mul_nonpos_of_nonpos_of_nonneg h0.le hq
        nlinarith

example : timeDecay [(1 : ℚ), 1] (1/2) = .ok [3/4, 1] ∧ timeDecay [(1 : ℚ), 1, 2] (1/2) = .ok [5/8, 3/4, 1] ∧
    timeDecay [(1 : ℚ), 1] 0 = .ok [1/2, 1] ∧ timeDecay [(1 : ℚ), 1, 2] 0 = .ok [1/4, 1/2, 1] ∧
    timeDecay [(1 : ℚ), 1] (-1/4) = .ok [1/3, 1] ∧ timeDecay [(1 : ℚ), 1, 1] (-1/4) = .ok [1/9, 5/9, 1] := by decide +kernel

/-! ### Final weights without decay -/

theorem zipWith_map_left_factor (d i : List K) (k : K) : List.zipWith (· * ·) d (i.map (k * ·)) = (List.zipWith (· * ·) d i).map (k * ·) := by
  induction d generalizing i with
  | nil => simp
  | cons x d ih => cases i with
    | nil => simp
    | cons y i => simp only [List.map_cons, List.zipWith_cons_cons, ih, List.cons.injEq, and_true]; ring

theorem zipWith_map_right_factor (c v : List K) (k : K) : List.zipWith (· * ·) (c.map (k * ·)) v = (List.zipWith (· * ·) c v).map (k * ·) := by
  induction c generalizing v with
  | nil => simp
  | cons x c ih => cases v with
    | nil => simp
    | cons y v => simp only [List.map_cons, List.zipWith_cons_cons, ih, List.cons.injEq, and_true]; ring

theorem timeDecay_one_sum {u d : List K} (hd : timeDecay u 1 = .ok d) : u.sum ≠ 0 := by
  intro h0
  unfold timeDecay at hd
  rw [if_neg (by rw [not_not]; constructor <;> linarith [zero_lt_one (α := K)])] at hd
  have : (cumsumFrom 0 u).getLastD 0 = 0 := by
    by_cases hne : u = []
    · subst hne; simp [cumsumFrom]
    · rw [cumsum_getLastD 0 u hne, zero_add, h0]
  simp only [this, if_true] at hd
  cases hd

/-- The optional columns of the old events are the beginnings of those of all events. -/
def extendsCol (n : Nat) : Option (List K) → Option (List K) → Prop
  | none, none => True
  | some a, some b => a.length = n ∧ a = b.take n
  | _, _ => False

/-- **C129.** Without decay (`time_decay_intercept = 1`, the default) appending events multiplies the weights of all earlier events by one
positive factor, with or without return attribution and vertical-touch weights. -/
theorem C129_common_factor (u v : List K) (attr attr' vtw vtw' : Option (List K)) (out out' : List K)
    (ha : extendsCol u.length attr attr') (ht : extendsCol u.length vtw vtw')
    (h : finalWeights u 1 attr vtw none = .ok out) (h' : finalWeights (u ++ v) 1 attr' vtw' none = .ok out') :
    ∃ k : K, 0 < k ∧ out'.take u.length = out.map (k * ·) := by
  obtain ⟨-, d, i, c, hc, hd, i1, i2, o1, o2⟩ := C54_mean_one u 1 attr vtw out h
  obtain ⟨-, d', i', c', hc', hd', i1', i2', o1', o2'⟩ := C54_mean_one (u ++ v) 1 attr' vtw' out' h'
  -- the decay weights are all 1
  have ones : ∀ (u d : List K), timeDecay u 1 = .ok d → d = List.replicate u.length 1 := by
    intro u d hd
    have hS : u.sum ≠ 0 := timeDecay_one_sum hd
    obtain ⟨w, e, hl, hg⟩ := C29_closed_form (u := u) (lw := (1 : K)) (by linarith [zero_lt_one (α := K)]) le_rfl hS
    rw [hd, Except.ok.injEq] at e
    subst e
    apply List.ext_getElem?
    intro k
    by_cases hk : k < u.length
    · rw [hg k hk, List.getElem?_replicate, if_pos hk, if_pos zero_le_one]; simp
    · rw [List.getElem?_eq_none (by omega), List.getElem?_eq_none (by simp; omega)]
  have ed := ones u d hd
  have ed' := ones (u ++ v) d' hd'
  have edt : d'.take u.length = d := by
    rw [ed', ed, List.take_replicate, List.length_append, Nat.min_eq_left (by omega)]
  have hun : u ≠ [] := by
    rintro rfl
    exact timeDecay_one_sum hd rfl
  have hn : (0 : K) < (u.length : K) := by exact_mod_cast List.length_pos_iff.mpr hun
  have hn' : (0 : K) < ((u ++ v).length : K) := by rw [List.length_append]; push_cast; positivity
  -- the information weights differ by a factor
  have hinfo : ∃ q : K, 0 < q ∧ i'.take u.length = i.map (q * ·) := by
    cases attr with
    | none =>
      cases attr' with
      | some b => exact absurd ha (by simp [extendsCol])
      | none =>
        refine ⟨1, zero_lt_one, ?_⟩
        rw [i1 rfl, i1' rfl, List.take_append_of_le_length le_rfl, List.take_length]
        simp
    | some a =>
      cases attr' with
      | none => exact absurd ha (by simp [extendsCol])
      | some b =>
        obtain ⟨s1, e1⟩ := i2 a rfl
        obtain ⟨s2, e2⟩ := i2' b rfl
        obtain ⟨_, hab⟩ := ha
        refine ⟨((u ++ v).length : K) / b.sum * (a.sum / (u.length : K)), by positivity, ?_⟩
        rw [e1, e2, ← List.map_take, ← hab, List.map_map]
        apply List.map_congr_left
        intro x _
        simp only [Function.comp]
        field_simp
  obtain ⟨q, hq, ei⟩ := hinfo
  refine ⟨q * c / c', by positivity, ?_⟩
  have fin : ∀ l : List K, (l.map (q * ·)).map (fun x => x / c') = (l.map (fun x => x / c)).map (q * c / c' * ·) := by
    intro l
    rw [List.map_map, List.map_map]
    apply List.map_congr_left
    intro x _
    simp only [Function.comp]
    field_simp
  cases vtw with
  | none =>
    cases vtw' with
    | some b => exact absurd ht (by simp [extendsCol])
    | none =>
      rw [o1 rfl, o1' rfl, ← List.map_take, List.take_zipWith, edt, ei, zipWith_map_left_factor, fin]
  | some a =>
    cases vtw' with
    | none => exact absurd ht (by simp [extendsCol])
    | some b =>
      obtain ⟨_, hab⟩ := ht
      rw [o2 a rfl, o2' b rfl, ← List.map_take, List.take_zipWith, List.take_zipWith, edt, ei, ← hab, zipWith_map_left_factor,
        zipWith_map_right_factor, fin]

example : finalWeights [(1 : ℚ), 3] 1 none none none = .ok [1/2, 3/2] ∧ finalWeights [(1 : ℚ), 3, 5] 1 none none none = .ok [1/3, 1, 5/3] ∧
    finalWeights [(1 : ℚ), 3] 1 (some [1, 1]) (some [1, 1/2]) none = .ok [4/3, 2/3] := by decide +kernel

/-- **C129.** With class balancing the factor depends on the class: inside a class the earlier events keep their ratios. -/
theorem C129_class_factor (u v : List K) (attr attr' vtw vtw' : Option (List K)) (labels labels' : List Int) (base base' out out' : List K)
    (ha : extendsCol u.length attr attr') (ht : extendsCol u.length vtw vtw') (hl : labels.length = base.length)
    (hbl : base.length = u.length)
    (h : finalWeights u 1 attr vtw none = .ok base) (h' : finalWeights (u ++ v) 1 attr' vtw' none = .ok base')
    (hpos : ∀ c ∈ labels, 0 < classTotal c labels base)
    (ho : out = (classBalance labels base).2.2.2) (ho' : out' = (classBalance (labels ++ labels') base').2.2.2) :
    ∃ f : Int → K, out'.take u.length = List.zipWith (fun l x => f l * x) labels out := by
  obtain ⟨k, hk, hb⟩ := C129_common_factor u v attr attr' vtw vtw' base base' ha ht h h'
  obtain ⟨g, hg⟩ : ∃ g : Int → K, g = fun l => (classBalance labels base).2.1.getD (searchLeft (uniqueLabels labels) l) 0 := ⟨_, rfl⟩
  have eg : out = List.zipWith (fun l x => x * g l) labels base := by rw [ho, hg]; rfl
  obtain ⟨g', eg'⟩ := C30_within_class (labels ++ labels') base'
  rw [← ho'] at eg'
  have hsum : base.sum = (base.length : K) := (C54_mean_one u 1 attr vtw base h).1
  have gne : ∀ c ∈ labels, g c ≠ 0 := by
    intro c hc h0
    have e1 := C30_equal_classes labels base hl c hc (hpos c hc)
    have e2 := classTotal_map c labels base g (classBalance labels base).2.2.2 (by rw [classBalance_zip, hg])
    rw [e2, h0, mul_zero, hsum] at e1
    have hne : labels ≠ [] := List.ne_nil_of_mem hc
    have p1 : (0 : K) < (base.length : K) := by
      rw [← hl]; exact_mod_cast List.length_pos_iff.mpr hne
    have p2 : (0 : K) < (labels.dedup.length : K) := by
      have : labels.dedup ≠ [] := fun h => hne ((List.dedup_eq_nil labels).mp h)
      exact_mod_cast List.length_pos_iff.mpr this
    have : (0 : K) < (base.length : K) / (labels.dedup.length : K) := div_pos p1 p2
    rw [← e1] at this
    exact lt_irrefl _ this
  refine ⟨fun l => k * g' l / g l, ?_⟩
  rw [eg', List.take_zipWith, hb, eg]
  have hlt : (labels ++ labels').take u.length = labels := by
    rw [← hbl, ← hl, List.take_append_of_le_length le_rfl, List.take_length]
  rw [hlt]
  clear hb eg eg' ho ho' hsum h h' hpos hlt hg
  have hlen : labels.length = base.length := hl
  clear hl hbl
  induction labels generalizing base with
  | nil => simp
  | cons l ls ih =>
    cases base with
    | nil => simp
    | cons x xs =>
      simp only [List.map_cons, List.zipWith_cons_cons]
      congr 1
      · have := gne l List.mem_cons_self
        field_simp
      · exact ih xs (fun c hc => gne c (List.mem_cons_of_mem _ hc)) (by simpa using hlen)

example : (classBalance [1, 1, -1] [(1 : ℚ), 3, 2]).2.2.2 = [3/4, 9/4, 3] ∧ (classBalance [1, 1, -1, 1] [(1 : ℚ), 3, 2, 4]).2.2.2 = [5/8, 15/8, 5, 5/2] := by
  decide +kernel

/-- **C129.** The scale of the return attribution does not matter, so its normalisation before the combination changes nothing. -/
theorem C129_attribution_scale (u a : List K) (lw k : K) (vtw : Option (List K)) (labels : Option (List Int)) (hk : 0 < k) :
    finalWeights u lw (some (a.map (k * ·))) vtw labels = finalWeights u lw (some a) vtw labels := by
  have hs : (a.map (k * ·)).sum = k * a.sum := by rw [List.sum_map_mul_left, List.map_id']
  unfold finalWeights
  cases timeDecay u lw with
  | error e => rfl
  | ok d =>
    simp only [hs]
    by_cases h : a.sum ≤ 0
    · rw [if_pos (mul_nonpos_of_nonneg_of_nonpos hk.le h), if_pos h]
    · rw [if_neg (by rw [not_le] at h ⊢; positivity), if_neg h]
      have e : (a.map (k * ·)).map (fun x => x * (u.length : K) / (k * a.sum)) = a.map (fun x => x * (u.length : K) / a.sum) := by
        rw [List.map_map]
        apply List.map_congr_left
        intro x _
        have : a.sum ≠ 0 := (not_le.mp h).ne'
        simp only [Function.comp]
        field_simp
      rw [e]

example : (0 : ℚ) < 3 ∧ finalWeights ([1, 1, 2] : List ℚ) (1 / 2) (some ([1, 2, 1].map (3 * ·))) none none =
    finalWeights ([1, 1, 2] : List ℚ) (1 / 2) (some [1, 2, 1]) none none := by decide +kernel

end FinML

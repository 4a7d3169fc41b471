/-
C39: aggregating footprints and bucketing price levels.
-/
import Verif.Model.VolumeProfile
import Verif.Lemmas.Search
import Verif.Lemmas.Footprint
import Verif.Lemmas.Indicators
import Mathlib.Data.List.GetD

set_option linter.unusedSectionVars false

namespace FinML

variable {K : Type} [Field K] [LinearOrder K] [IsStrictOrderedRing K]

/-! ### Helper facts -/

theorem foldl_min_int (l : List Int) (a : Int) (h : ∀ x ∈ l, a ≤ x) : l.foldl min a = a := by
  induction l with
  | nil => rfl
  | cons b t ih =>
    rw [List.foldl_cons, min_eq_left (h b List.mem_cons_self)]
    exact ih (fun x hx => h x (List.mem_cons_of_mem _ hx))

theorem foldl_max_int (l : List Int) (a : Int) (h : (a :: l).Pairwise (· ≤ ·)) :
    l.foldl max a = (a :: l).getLast (by simp) := by
  induction l generalizing a with
  | nil => rfl
  | cons b t ih =>
    have hab : a ≤ b := (List.pairwise_cons.mp h).1 b List.mem_cons_self
    rw [List.foldl_cons, max_eq_right hab, ih b (List.pairwise_cons.mp h).2]
    simp

theorem intMin_sorted {l : List Int} (hne : l ≠ []) (h : l.Pairwise (· ≤ ·)) : intMin l = l.head hne := by
  cases l with
  | nil => exact absurd rfl hne
  | cons a t => exact foldl_min_int t a (List.pairwise_cons.mp h).1

theorem intMax_sorted {l : List Int} (hne : l ≠ []) (h : l.Pairwise (· ≤ ·)) : intMax l = l.getLast hne := by
  cases l with
  | nil => exact absurd rfl hne
  | cons a t => exact foldl_max_int t a h

theorem head_le_of_sorted {l : List Int} (hne : l ≠ []) (h : l.Pairwise (· ≤ ·)) : ∀ x ∈ l, l.head hne ≤ x := by
  cases l with
  | nil => exact absurd rfl hne
  | cons a t =>
    intro x hx
    rcases List.mem_cons.mp hx with rfl | hx
    · exact le_refl _
    · exact (List.pairwise_cons.mp h).1 x hx

theorem le_getLast_of_sorted {l : List Int} (hne : l ≠ []) (h : l.Pairwise (· ≤ ·)) :
    ∀ x ∈ l, x ≤ l.getLast hne := by
  intro x hx
  obtain ⟨i, hi, rfl⟩ := List.getElem_of_mem hx
  rw [List.getLast_eq_getElem]
  exact sorted_get_le h hi (by omega) (by omega)

theorem bucketWidth_spec (R n : Int) :
    1 ≤ bucketWidth R n ∧ bucketWidth R n % 2 = 1 ∧ R / n ≤ bucketWidth R n ∧
      (bucketWidth R n ≤ R / n + 1 ∨ bucketWidth R n = 1) := by
  unfold bucketWidth
  simp only []
  generalize R / n = q
  rcases le_total q 1 with h | h
  · rw [max_eq_left h]; norm_num; omega
  · rw [max_eq_right h]; split <;> omega

/-- digitising a level into equally spaced edges is integer division -/
theorem searchRight_edges (mn mx bw p : Int) (hbw : 0 < bw) (h1 : mn ≤ p) (h2 : p ≤ mx) :
    (searchRight (arange mn (mx + bw) bw) p : Int) - 1 = (p - mn) / bw := by
  have hs : (arange mn (mx + bw) bw).Pairwise (· ≤ ·) := by
    rw [List.pairwise_iff_getElem]
    intro i j hi hj hij
    rw [arange_getElem, arange_getElem]
    have : (i : Int) * bw ≤ (j : Int) * bw := mul_le_mul_of_nonneg_right (by exact_mod_cast hij.le) hbw.le
    omega
  have hq0 : 0 ≤ (p - mn) / bw := Int.ediv_nonneg (by omega) hbw.le
  obtain ⟨q, hq⟩ := Int.eq_ofNat_of_zero_le hq0
  rw [hq]
  have hlo : (q : Int) * bw ≤ p - mn := by rw [← hq]; exact Int.ediv_mul_le _ (ne_of_gt hbw)
  have hhi : p - mn < (q : Int) * bw + bw := by
    have := Int.lt_ediv_add_one_mul_self (p - mn) hbw
    rw [hq] at this
    have e : ((q : Int) + 1) * bw = (q : Int) * bw + bw := by ring
    omega
  have hqL : q < (arange mn (mx + bw) bw).length := by rw [lt_arange_length hbw]; omega
  have ha : q < searchRight (arange mn (mx + bw) bw) p := by
    rw [lt_searchRight hs _ _ hqL, arange_getElem]; omega
  have hb : ¬ q + 1 < searchRight (arange mn (mx + bw) bw) p := by
    intro hc
    have hL : q + 1 < (arange mn (mx + bw) bw).length := lt_of_lt_of_le hc (searchRight_le_length _ _)
    rw [lt_searchRight hs _ _ hL, arange_getElem] at hc
    have e : ((q + 1 : Nat) : Int) * bw = (q : Int) * bw + bw := by push_cast; ring
    omega
  omega

/-- number of edges minus one -/
theorem edges_length (mn mx bw : Int) (hbw : 0 < bw) (h : mn ≤ mx) :
    (((arange mn (mx + bw) bw).length - 1 : Nat) : Int)
      = (mx - mn) / bw + (if (mx - mn) % bw = 0 then 0 else 1) := by
  have hq0 : 0 ≤ (mx - mn) / bw := Int.ediv_nonneg (by omega) hbw.le
  have hdm := Int.mul_ediv_add_emod (mx - mn) bw
  have hm0 := Int.emod_nonneg (mx - mn) (ne_of_gt hbw)
  have hm1 := Int.emod_lt_of_pos (mx - mn) hbw
  obtain ⟨q, hq⟩ := Int.eq_ofNat_of_zero_le hq0
  rw [hq] at hdm ⊢
  generalize (mx - mn) % bw = r at *
  have e1 : bw * (q : Int) = (q : Int) * bw := by ring
  have hlt : ∀ i : Nat, i < (arange mn (mx + bw) bw).length ↔ (i : Int) * bw < (q : Int) * bw + r + bw := by
    intro i; rw [lt_arange_length hbw]; omega
  have hle : ∀ a b : Nat, a ≤ b → (a : Int) * bw ≤ (b : Int) * bw := fun a b hab =>
    mul_le_mul_of_nonneg_right (by exact_mod_cast hab) hbw.le
  have e2 : ((q + 1 : Nat) : Int) * bw = (q : Int) * bw + bw := by push_cast; ring
  have e3 : ((q + 2 : Nat) : Int) * bw = (q : Int) * bw + bw + bw := by push_cast; ring
  by_cases hr : r = 0
  · rw [if_pos hr]
    have a1 := (hlt q).mpr (by omega)
    have a2 : ¬ q + 1 < (arange mn (mx + bw) bw).length := by rw [hlt]; omega
    omega
  · rw [if_neg hr]
    have a1 := (hlt (q + 1)).mpr (by omega)
    have a2 : ¬ q + 2 < (arange mn (mx + bw) bw).length := by rw [hlt]; omega
    omega

theorem bucketAdd_length (n : Int) (out : List K) (idx : List Int) (vols : List K) :
    (bucketAdd n out idx vols).length = out.length := by
  unfold bucketAdd
  generalize idx.zip vols = z
  induction z generalizing out with
  | nil => rfl
  | cons p t ih => rw [List.foldl_cons, ih]; split <;> simp

theorem bucketAdd_get (n : Int) (out : List K) (idx : List Int) (vols : List K)
    (h : ∀ i ∈ idx, 0 ≤ i ∧ i ≤ n) (k : Nat) :
    (bucketAdd n out idx vols)[k]?
      = out[k]?.map (· + (((idx.zip vols).filter (fun p => decide (p.1 = (k : Int)))).map Prod.snd).sum) := by
  unfold bucketAdd
  have h' : ∀ p ∈ idx.zip vols, 0 ≤ p.1 ∧ p.1 ≤ n := fun p hp => h p.1 (List.of_mem_zip hp).1
  revert h'
  generalize idx.zip vols = z
  intro h'
  induction z generalizing out with
  | nil => simp
  | cons p t ih =>
    have hp := h' p List.mem_cons_self
    rw [List.foldl_cons, if_pos hp, ih _ (fun q hq => h' q (List.mem_cons_of_mem _ hq)), modify_add_getElem?]
    by_cases hk : p.1 = (k : Int)
    · have : p.1.toNat = k := by omega
      rw [List.filter_cons_of_pos (by simpa using hk), List.map_cons, List.sum_cons, if_pos this]
      cases out[k]? with
      | none => rfl
      | some x => simp [add_assoc]
    · have : p.1.toNat ≠ k := by omega
      rw [List.filter_cons_of_neg (by simpa using hk), if_neg this]
      cases out[k]? with
      | none => rfl
      | some x => simp

theorem sum_modify (l : List K) (i : Nat) (a : K) (h : i < l.length) :
    (l.modify i (· + a)).sum = l.sum + a := by
  induction l generalizing i with
  | nil => simp at h
  | cons b t ih =>
    cases i with
    | zero => simp; ring
    | succ j =>
      have : j < t.length := by simpa using h
      rw [List.modify_succ_cons, List.sum_cons, ih j this, List.sum_cons]; ring

theorem bucketAdd_sum (n : Int) (out : List K) (idx : List Int) (vols : List K)
    (h : ∀ i ∈ idx, 0 ≤ i ∧ i ≤ n ∧ i < out.length) (hl : vols.length = idx.length) :
    (bucketAdd n out idx vols).sum = out.sum + vols.sum := by
  unfold bucketAdd
  have h' : ∀ p ∈ idx.zip vols, 0 ≤ p.1 ∧ p.1 ≤ n ∧ p.1 < out.length := fun p hp => h p.1 (List.of_mem_zip hp).1
  have hv : vols = (idx.zip vols).map Prod.snd := by rw [List.map_snd_zip]; omega
  conv_rhs => rw [hv]
  revert h'
  generalize idx.zip vols = z
  intro h'
  clear hv hl h
  induction z generalizing out with
  | nil => simp
  | cons p t ih =>
    have hp := h' p List.mem_cons_self
    rw [List.foldl_cons, if_pos ⟨hp.1, hp.2.1⟩, ih, sum_modify _ _ _ (by omega), List.map_cons, List.sum_cons]
    · ring
    · intro q hq
      have := h' q (List.mem_cons_of_mem _ hq)
      simpa using this

/-! ### Closed form of the bucketing -/

theorem mids_get (mn bw : Int) (hodd : bw % 2 = 1) (L : Nat) (edges : List Int) (hL : edges.length = L)
    (he : ∀ (i : Nat) (h : i < edges.length), edges[i] = mn + (i : Int) * bw) (n k : Nat) (hn : n = L - 1) (hk : k < n) :
    ((List.zipWith (fun a b => (a + b - 1) / 2) edges.dropLast edges.tail).take n)[k]?
      = some (mn + (k : Int) * bw + (bw - 1) / 2) := by
  rw [List.getElem?_take_of_lt hk, List.getElem?_zipWith]
  have h1 : k < edges.dropLast.length := by rw [List.length_dropLast]; omega
  have h2 : k < edges.tail.length := by rw [List.length_tail]; omega
  rw [List.getElem?_eq_getElem h1, List.getElem?_eq_getElem h2, List.getElem_dropLast, List.getElem_tail, he, he]
  simp only [Option.some.injEq]
  have e : ((k + 1 : Nat) : Int) * bw = (k : Int) * bw + bw := by push_cast; ring
  rw [e]
  omega

/-- The closed form with the width named. -/
theorem bucket_closed_width (levels : List Int) (vols : List K) (nBins : Int) (hne : levels ≠ [])
    (hs : levels.Pairwise (· ≤ ·)) (hn : 0 < nBins) (hlen : vols.length = levels.length) :
    ∃ (bw : Int) (reps : List Int) (out : List K),
      bucketPriceLevels levels vols nBins = .ok (reps, out) ∧
      bw = bucketWidth (levels.getLast hne - levels.head hne) nBins ∧
      1 ≤ bw ∧ bw % 2 = 1 ∧
      (levels.getLast hne - levels.head hne) / nBins ≤ bw ∧
      (bw ≤ (levels.getLast hne - levels.head hne) / nBins + 1 ∨ bw = 1) ∧
      (reps.length : Int) = (levels.getLast hne - levels.head hne) / bw + 1 ∧
      out.length = reps.length ∧ out.sum = vols.sum ∧
      ∀ k : Nat, k < reps.length →
        reps[k]? = some (if levels.head hne + k * bw = levels.getLast hne then levels.getLast hne
                         else levels.head hne + k * bw + (bw - 1) / 2) ∧
        out[k]? = some (((levels.zip vols).filter (fun p => decide
          (levels.head hne + k * bw ≤ p.1 ∧ p.1 < levels.head hne + (k + 1) * bw))).map Prod.snd).sum := by
  unfold bucketPriceLevels
  rw [if_neg hne, if_neg (ne_of_gt hn), intMin_sorted hne hs, intMax_sorted hne hs]
  have hall : ∀ x ∈ levels, levels.head hne ≤ x ∧ x ≤ levels.getLast hne := fun x hx =>
    ⟨head_le_of_sorted hne hs x hx, le_getLast_of_sorted hne hs x hx⟩
  have hmnmx : levels.head hne ≤ levels.getLast hne := (hall _ (List.getLast_mem hne)).1
  have hlastmem := List.getLast?_eq_getLast_of_ne_nil hne
  generalize hmn : levels.head hne = mn at *
  generalize hmx : levels.getLast hne = mx at *
  obtain ⟨b1, b2, b3, b4⟩ := bucketWidth_spec (mx - mn) nBins
  generalize hbw : bucketWidth (mx - mn) nBins = bw at *
  have hbpos : 0 < bw := by omega
  simp only [hbw]
  -- the indices
  have hidx : levels.map (fun p => (searchRight (if (arange mn (mx + bw) bw).length < 2 then [mn, mx + 1]
        else arange mn (mx + bw) bw) p : Int) - 1) = levels.map (fun p => (p - mn) / bw) := by
    apply List.map_congr_left
    intro p hp
    have hpr := hall p hp
    by_cases hL : (arange mn (mx + bw) bw).length < 2
    · rw [if_pos hL]
      have hlen1 := edges_length mn mx bw hbpos hmnmx
      have hq0 : 0 ≤ (mx - mn) / bw := Int.ediv_nonneg (by omega) hbpos.le
      have hdm := Int.mul_ediv_add_emod (mx - mn) bw
      have hz : ((arange mn (mx + bw) bw).length - 1 : Nat) = 0 := by omega
      rw [hz] at hlen1
      have hq : (mx - mn) / bw = 0 ∧ (mx - mn) % bw = 0 := by
        split at hlen1 <;> constructor <;> omega
      rw [hq.1, hq.2] at hdm
      have hpm : p = mn := by simp at hdm; omega
      have hmm : mx = mn := by simp at hdm; omega
      subst hpm; subst hmm
      simp [searchRight]
    · rw [if_neg hL]; exact searchRight_edges mn mx bw p hbpos hpr.1 hpr.2
  rw [hidx]
  have hlast : (levels.map (fun p => (p - mn) / bw)).getLastD 0 = (mx - mn) / bw := by
    rw [List.getLastD_eq_getLast?, List.getLast?_map, hlastmem]; rfl
  rw [hlast]
  have hnl := edges_length mn mx bw hbpos hmnmx
  generalize hN : (arange mn (mx + bw) bw).length - 1 = N at *
  have hq0 : 0 ≤ (mx - mn) / bw := Int.ediv_nonneg (by omega) hbpos.le
  have hdm := Int.mul_ediv_add_emod (mx - mn) bw
  have hm0 := Int.emod_nonneg (mx - mn) (ne_of_gt hbpos)
  have hm1 := Int.emod_lt_of_pos (mx - mn) hbpos
  have hidxr : ∀ i ∈ levels.map (fun p => (p - mn) / bw), 0 ≤ i ∧ i ≤ (mx - mn) / bw := by
    intro i hi
    obtain ⟨p, hp, rfl⟩ := List.mem_map.mp hi
    have := hall p hp
    exact ⟨Int.ediv_nonneg (by omega) hbpos.le, Int.ediv_le_ediv hbpos (by omega)⟩
  have hzip : ∀ k : Nat, (((levels.map (fun p => (p - mn) / bw)).zip vols).filter
        (fun p => decide (p.1 = (k : Int)))).map Prod.snd
      = ((levels.zip vols).filter (fun p => decide
          (mn + k * bw ≤ p.1 ∧ p.1 < mn + (k + 1) * bw))).map Prod.snd := by
    intro k
    rw [List.zip_map_left, List.filter_map, List.map_map]
    have : (Prod.snd ∘ Prod.map (fun p => (p - mn) / bw) id : Int × K → K) = Prod.snd := by funext x; rfl
    rw [this]
    congr 1
    apply List.filter_congr
    intro x _
    simp only [Function.comp, Prod.map]
    have hiff : (x.1 - mn) / bw = (k : Int) ↔ (mn + k * bw ≤ x.1 ∧ x.1 < mn + (k + 1) * bw) := by
      constructor
      · intro h
        have c1 := Int.ediv_mul_le (x.1 - mn) (ne_of_gt hbpos)
        have c2 := Int.lt_ediv_add_one_mul_self (x.1 - mn) hbpos
        rw [h] at c1 c2
        omega
      · rintro ⟨h1, h2⟩
        apply le_antisymm
        · have : (x.1 - mn) / bw < (k : Int) + 1 := Int.ediv_lt_of_lt_mul hbpos (by omega)
          omega
        · exact Int.le_ediv_of_mul_le hbpos (by omega)
    by_cases hh : (x.1 - mn) / bw = (k : Int)
    · simp only [hh, hiff.mp hh, and_self, decide_true]
    · have hh2 : ¬ (mn + k * bw ≤ x.1 ∧ x.1 < mn + (k + 1) * bw) := fun c => hh (hiff.mpr c)
      rw [decide_eq_false hh, decide_eq_false hh2]
  have hmids : ∀ k : Nat, k < N → ((List.zipWith (fun a b => (a + b - 1) / 2)
      (if (arange mn (mx + bw) bw).length < 2 then [mn, mx + 1] else arange mn (mx + bw) bw).dropLast
      (if (arange mn (mx + bw) bw).length < 2 then [mn, mx + 1] else arange mn (mx + bw) bw).tail).take N)[k]?
        = some (mn + (k : Int) * bw + (bw - 1) / 2) := by
    intro k hk
    rw [if_neg (by omega)]
    exact mids_get mn bw b2 _ _ rfl (fun i h => arange_getElem mn (mx + bw) bw i h) N k hN.symm hk
  have hmidlen : ((List.zipWith (fun a b => (a + b - 1) / 2)
      (if (arange mn (mx + bw) bw).length < 2 then [mn, mx + 1] else arange mn (mx + bw) bw).dropLast
      (if (arange mn (mx + bw) bw).length < 2 then [mn, mx + 1] else arange mn (mx + bw) bw).tail).take N).length
        = N := by
    rw [List.length_take, List.length_zipWith, List.length_dropLast, List.length_tail]
    split
    · simp only [List.length_cons, List.length_nil]; omega
    · omega
  generalize ((List.zipWith (fun a b => (a + b - 1) / 2)
      (if (arange mn (mx + bw) bw).length < 2 then [mn, mx + 1] else arange mn (mx + bw) bw).dropLast
      (if (arange mn (mx + bw) bw).length < 2 then [mn, mx + 1] else arange mn (mx + bw) bw).tail).take N) = mids at *
  have hvl : vols.length = (levels.map (fun p => (p - mn) / bw)).length := by simpa using hlen
  by_cases hr : (mx - mn) % bw = 0
  · rw [if_pos hr] at hnl
    have hNq : (mx - mn) / bw = (N : Int) := by omega
    rw [if_pos hNq]
    rw [hNq] at hidxr
    have hmxN : mn + (N : Int) * bw = mx := by
      rw [hr, hNq] at hdm
      have : bw * (N : Int) = (N : Int) * bw := by ring
      omega
    refine ⟨bw, _, _, rfl, rfl, b1, b2, b3, b4, ?_, ?_, ?_, ?_⟩
    · rw [List.length_append, hmidlen, hNq]; simp
    · rw [bucketAdd_length, List.length_append, hmidlen]; simp
    · rw [bucketAdd_sum _ _ _ _ _ hvl]
      · simp
      · intro i hi
        have := hidxr i hi
        refine ⟨this.1, this.2, ?_⟩
        rw [List.length_replicate]; omega
    · intro k hk
      rw [List.length_append, hmidlen] at hk
      simp only [List.length_singleton] at hk
      constructor
      · by_cases hkN : k < N
        · rw [List.getElem?_append_left (by omega), hmids k hkN, if_neg]
          have : ((k : Int) + 1) * bw ≤ (N : Int) * bw :=
            mul_le_mul_of_nonneg_right (by exact_mod_cast hkN) hbpos.le
          have e : ((k : Int) + 1) * bw = (k : Int) * bw + bw := by ring
          omega
        · have : k = N := by omega
          subst this
          rw [List.getElem?_append_right (by omega), hmidlen, if_pos hmxN]; simp
      · rw [bucketAdd_get _ _ _ _ hidxr, hzip, List.getElem?_replicate, if_pos (by omega)]; simp
  · rw [if_neg hr] at hnl
    have hNq : (mx - mn) / bw + 1 = (N : Int) := by omega
    rw [if_neg (by omega)]
    refine ⟨bw, _, _, rfl, rfl, b1, b2, b3, b4, ?_, ?_, ?_, ?_⟩
    · rw [hmidlen]; omega
    · rw [bucketAdd_length, hmidlen]; simp
    · rw [bucketAdd_sum _ _ _ _ _ hvl]
      · simp
      · intro i hi
        have := hidxr i hi
        refine ⟨this.1, by omega, ?_⟩
        rw [List.length_replicate]; omega
    · intro k hk
      rw [hmidlen] at hk
      constructor
      · rw [hmids k hk, if_neg]
        intro hc
        apply hr
        have : mx - mn = (k : Int) * bw := by omega
        rw [this]; exact Int.mul_emod_left _ _
      · rw [bucketAdd_get _ _ _ _ (fun i hi => ⟨(hidxr i hi).1, by have := (hidxr i hi).2; omega⟩), hzip,
          List.getElem?_replicate, if_pos hk]; simp

/-- The complete description of the bucketing: the bucket width `bw` is odd, bucket `k` covers the ticks
`[mn + k·bw, mn + (k+1)·bw)`, its volume is the volume of the levels inside, its representative is the middle tick,
except for a last bucket that contains the single level `mx`. -/
theorem C39_bucket_closed_form (levels : List Int) (vols : List K) (nBins : Int) (hne : levels ≠ [])
    (hs : levels.Pairwise (· ≤ ·)) (hn : 0 < nBins) (hlen : vols.length = levels.length) :
    ∃ (bw : Int) (reps : List Int) (out : List K),
      bucketPriceLevels levels vols nBins = .ok (reps, out) ∧
      1 ≤ bw ∧ bw % 2 = 1 ∧
      (levels.getLast hne - levels.head hne) / nBins ≤ bw ∧
      (bw ≤ (levels.getLast hne - levels.head hne) / nBins + 1 ∨ bw = 1) ∧
      (reps.length : Int) = (levels.getLast hne - levels.head hne) / bw + 1 ∧
      out.length = reps.length ∧ out.sum = vols.sum ∧
      ∀ k : Nat, k < reps.length →
        reps[k]? = some (if levels.head hne + k * bw = levels.getLast hne then levels.getLast hne
                         else levels.head hne + k * bw + (bw - 1) / 2) ∧
        out[k]? = some (((levels.zip vols).filter (fun p => decide
          (levels.head hne + k * bw ≤ p.1 ∧ p.1 < levels.head hne + (k + 1) * bw))).map Prod.snd).sum := by
  obtain ⟨bw, reps, out, h1, _, h2⟩ := bucket_closed_width levels vols nBins hne hs hn hlen
  exact ⟨bw, reps, out, h1, h2⟩

example : bucketPriceLevels [100, 101, 102, 103, 104, 105, 106] ([1, 2, 3, 4, 5, 6, 7] : List ℚ) 2
    = .ok ([101, 104, 106], [6, 15, 7]) := by decide +kernel
example : bucketPriceLevels [100] ([5] : List ℚ) 27 = .ok ([100], [5]) := by decide +kernel

/-- Bucketing preserves the total volume. -/
theorem C39_bucket_conserves_volume (levels : List Int) (vols : List K) (nBins : Int) (hne : levels ≠ [])
    (hs : levels.Pairwise (· ≤ ·)) (hn : 0 < nBins) (hlen : vols.length = levels.length)
    (reps : List Int) (out : List K) (h : bucketPriceLevels levels vols nBins = .ok (reps, out)) :
    out.sum = vols.sum ∧ out.length = reps.length := by
  obtain ⟨bw, r, o, h1, _, _, _, _, _, h7, h8, _⟩ := C39_bucket_closed_form levels vols nBins hne hs hn hlen
  rw [h] at h1
  injection h1 with h1
  obtain ⟨rfl, rfl⟩ := Prod.mk.inj h1
  exact ⟨h8, h7⟩

example : ∃ r o, bucketPriceLevels [100, 101, 103] ([1, 2, 3] : List ℚ) 2 = .ok (r, o) ∧ o.sum = 6 :=
  ⟨[100, 101, 102, 103], [1, 2, 0, 3], by decide +kernel, by decide +kernel⟩

/-- The bucket representatives are strictly ascending. -/
theorem C39_representatives_ascending (levels : List Int) (vols : List K) (nBins : Int) (hne : levels ≠ [])
    (hs : levels.Pairwise (· ≤ ·)) (hn : 0 < nBins) (hlen : vols.length = levels.length)
    (reps : List Int) (out : List K) (h : bucketPriceLevels levels vols nBins = .ok (reps, out)) :
    reps.Pairwise (· < ·) := by
  obtain ⟨bw, r, o, h1, h2, h3, _, _, h6, _, _, h9⟩ := C39_bucket_closed_form levels vols nBins hne hs hn hlen
  rw [h] at h1
  injection h1 with h1
  obtain ⟨rfl, rfl⟩ := Prod.mk.inj h1
  rw [List.pairwise_iff_getElem]
  intro i j hi hj hij
  have ei := (h9 i hi).1
  have ej := (h9 j hj).1
  rw [List.getElem?_eq_getElem hi, Option.some.injEq] at ei
  rw [List.getElem?_eq_getElem hj, Option.some.injEq] at ej
  rw [ei, ej]
  have hmul : ((i : Int) + 1) * bw ≤ (j : Int) * bw := mul_le_mul_of_nonneg_right (by exact_mod_cast hij) (by omega)
  have e : ((i : Int) + 1) * bw = (i : Int) * bw + bw := by ring
  have hmxj : levels.head hne + j * bw ≤ levels.getLast hne := by
    have c := Int.ediv_mul_le (levels.getLast hne - levels.head hne) (ne_of_gt (show (0:Int) < bw by omega))
    have : (j : Int) * bw ≤ (levels.getLast hne - levels.head hne) / bw * bw :=
      mul_le_mul_of_nonneg_right (by omega) (by omega)
    omega
  split <;> split <;> omega

example : ([1, 2, 3, 4] : List Int).Pairwise (· ≤ ·) ∧ (bucketPriceLevels [1, 2, 3, 4] ([5, 6, 7, 8] : List ℚ) 2).isOk = true := by decide +kernel

/-- Every level lies in exactly one bucket, and the representative of that bucket is at most half a bucket away. -/
theorem C39_level_near_its_representative (levels : List Int) (vols : List K) (nBins : Int) (hne : levels ≠ [])
    (hs : levels.Pairwise (· ≤ ·)) (hn : 0 < nBins) (hlen : vols.length = levels.length)
    (reps : List Int) (out : List K) (h : bucketPriceLevels levels vols nBins = .ok (reps, out)) :
    ∃ bw : Int, bw % 2 = 1 ∧ 1 ≤ bw ∧ ∀ p ∈ levels, ∃ k : Nat, k < reps.length ∧
      levels.head hne + k * bw ≤ p ∧ p < levels.head hne + (k + 1) * bw ∧
      (∀ j : Nat, levels.head hne + j * bw ≤ p → p < levels.head hne + (j + 1) * bw → j = k) ∧
      ∃ r, reps[k]? = some r ∧ 2 * |p - r| ≤ bw - 1 := by
  obtain ⟨bw, r, o, h1, h2, h3, _, _, h6, _, _, h9⟩ := C39_bucket_closed_form levels vols nBins hne hs hn hlen
  rw [h] at h1
  injection h1 with h1
  obtain ⟨rfl, rfl⟩ := Prod.mk.inj h1
  refine ⟨bw, h3, h2, ?_⟩
  intro p hp
  have hlo := head_le_of_sorted hne hs p hp
  have hhi := le_getLast_of_sorted hne hs p hp
  have hbpos : 0 < bw := by omega
  have hq0 : 0 ≤ (p - levels.head hne) / bw := Int.ediv_nonneg (by omega) hbpos.le
  have hqle : (p - levels.head hne) / bw ≤ (levels.getLast hne - levels.head hne) / bw :=
    Int.ediv_le_ediv hbpos (by omega)
  have c1 := Int.ediv_mul_le (p - levels.head hne) (ne_of_gt hbpos)
  have c2 := Int.lt_ediv_add_one_mul_self (p - levels.head hne) hbpos
  obtain ⟨k, hk⟩ := Int.eq_ofNat_of_zero_le hq0
  rw [hk] at c1 c2 hqle
  have hkr : k < reps.length := by omega
  have e : ((k : Int) + 1) * bw = (k : Int) * bw + bw := by ring
  refine ⟨k, hkr, by omega, by omega, ?_, _, (h9 k hkr).1, ?_⟩
  · intro j hj1 hj2
    by_contra hne'
    rcases Nat.lt_or_gt_of_ne hne' with hlt | hgt
    · have : ((j : Int) + 1) * bw ≤ (k : Int) * bw := mul_le_mul_of_nonneg_right (by exact_mod_cast hlt) hbpos.le
      omega
    · have : ((k : Int) + 1) * bw ≤ (j : Int) * bw := mul_le_mul_of_nonneg_right (by exact_mod_cast hgt) hbpos.le
      omega
  · split
    · rename_i heq
      have : p = levels.getLast hne := by omega
      rw [this]; simp; omega
    · have hb : bw = 2 * ((bw - 1) / 2) + 1 := by omega
      generalize (bw - 1) / 2 = hw at *
      have : |p - (levels.head hne + (k : Int) * bw + hw)| ≤ hw := by
        rw [abs_le]; constructor <;> omega
      omega

example : ∃ r o, bucketPriceLevels [100, 101, 102, 103, 104, 105, 106] ([1, 1, 1, 1, 1, 1, 1] : List ℚ) 2 = .ok (r, o) ∧
    r = [101, 104, 106] := ⟨[101, 104, 106], [3, 3, 1], by decide +kernel, rfl⟩

/-- The number of buckets is at most twice the requested number. -/
theorem C39_bucket_count (levels : List Int) (vols : List K) (nBins : Int) (hne : levels ≠ [])
    (hs : levels.Pairwise (· ≤ ·)) (hn : 0 < nBins) (hlen : vols.length = levels.length)
    (reps : List Int) (out : List K) (h : bucketPriceLevels levels vols nBins = .ok (reps, out)) :
    (reps.length : Int) ≤ 2 * nBins := by
  obtain ⟨bw, r, o, h1, h2, h3, h4, h5, h6, _, _, h9⟩ := C39_bucket_closed_form levels vols nBins hne hs hn hlen
  rw [h] at h1
  injection h1 with h1
  obtain ⟨rfl, rfl⟩ := Prod.mk.inj h1
  have hR : 0 ≤ levels.getLast hne - levels.head hne := by
    have := head_le_of_sorted hne hs _ (List.getLast_mem hne)
    omega
  generalize levels.getLast hne - levels.head hne = R at *
  rw [h6]
  have hbpos : 0 < bw := by omega
  have c := Int.lt_ediv_add_one_mul_self R hn
  have hq0 : 0 ≤ R / nBins := Int.ediv_nonneg hR hn.le
  have hlt : R / bw < 2 * nBins := by
    apply Int.ediv_lt_of_lt_mul hbpos
    have : (R / nBins + 1) * nBins ≤ (2 * bw) * nBins :=
      mul_le_mul_of_nonneg_right (by omega) hn.le
    have e : (2 * bw) * nBins = 2 * nBins * bw := by ring
    omega
  omega

example : ([0, 16] : List Int).Pairwise (· ≤ ·) ∧ bucketPriceLevels [0, 16] ([1, 1] : List ℚ) 3 = .ok ([2, 7, 12, 17], [1, 0, 0, 1]) := by decide +kernel

/-- Witness: asking for 2 buckets can give 4. -/
theorem C39_bucket_count_exceeded : ∃ (levels : List Int) (vols : List ℚ) (reps : List Int) (out : List ℚ),
    bucketPriceLevels levels vols 2 = .ok (reps, out) ∧ reps.length = 4 :=
  ⟨[0, 1, 2, 3], [1, 1, 1, 1], [0, 1, 2, 3], [1, 1, 1, 1], by decide +kernel, rfl⟩

/-- A representative can lie above every price level of the profile (the last bucket is not cut at the maximum), so
POC, HVA and LVA need not be prices inside the window's range. -/
theorem C39_representative_above_range : ∃ (levels : List Int) (vols : List ℚ) (reps : List Int) (out : List ℚ),
    levels.Pairwise (· < ·) ∧ bucketPriceLevels levels vols 3 = .ok (reps, out) ∧
    ∃ r ∈ reps, ∀ p ∈ levels, p < r :=
  ⟨[0, 16], [1, 1], [2, 7, 12, 17], [1, 0, 0, 1], by decide, by decide +kernel, 17, by decide, by decide⟩

/-! ### Aligning footprints -/

theorem putAll_length (a : List K) (idx : List Nat) (v : List K) : (putAll a idx v).length = a.length := by
  unfold putAll
  generalize idx.zip v = z
  induction z generalizing a with
  | nil => rfl
  | cons p t ih => rw [List.foldl_cons, ih, List.length_set]

theorem putAll_get_of_notMem (a : List K) (idx : List Nat) (v : List K) (k : Nat) (h : k ∉ idx) :
    (putAll a idx v)[k]? = a[k]? := by
  unfold putAll
  have h' : ∀ p ∈ idx.zip v, p.1 ≠ k := fun p hp e => h (e ▸ (List.of_mem_zip hp).1)
  revert h'
  generalize idx.zip v = z
  intro h'
  induction z generalizing a with
  | nil => rfl
  | cons p t ih =>
    rw [List.foldl_cons, ih _ (fun q hq => h' q (List.mem_cons_of_mem _ hq)),
      List.getElem?_set_ne (h' p List.mem_cons_self)]

theorem putAll_get_of_nodup (a : List K) (idx : List Nat) (v : List K) (hnd : idx.Nodup) (hlen : idx.length = v.length)
    (i : Nat) (hi : i < idx.length) (hk : idx[i] < a.length) :
    (putAll a idx v)[idx[i]]? = v[i]? := by
  induction idx generalizing a v i with
  | nil => simp at hi
  | cons p t ih =>
    cases v with
    | nil => simp at hlen
    | cons x xs =>
      have hstep : putAll a (p :: t) (x :: xs) = putAll (a.set p x) t xs := rfl
      rw [hstep]
      cases i with
      | zero =>
        simp only [List.getElem_cons_zero, List.getElem?_cons_zero] at hk ⊢
        rw [putAll_get_of_notMem _ _ _ _ (List.nodup_cons.mp hnd).1, List.getElem?_set_self hk]
      | succ j =>
        simp only [List.getElem_cons_succ, List.getElem?_cons_succ] at hk ⊢
        have hj : j < t.length := by simpa using hi
        exact ih _ _ (List.nodup_cons.mp hnd).2 (by simpa using hlen) j hj (by simpa using hk)

theorem fancyAdd_length (a : List K) (idx : List Nat) (v : List K) : (fancyAdd a idx v).length = a.length :=
  putAll_length _ _ _

/-- volume recorded for level `p` in a level/volume table -/
def volumeAt (levels : List Int) (vols : List K) (p : Int) : K :=
  (((levels.zip vols).filter (fun x => decide (x.1 = p))).map Prod.snd).sum

theorem volumeAt_notMem (levels : List Int) (vols : List K) (p : Int) (h : p ∉ levels) : volumeAt levels vols p = 0 := by
  unfold volumeAt
  rw [List.filter_eq_nil_iff.mpr]
  · simp
  · intro x hx
    simp only [decide_eq_true_eq]
    exact fun e => h (e ▸ (List.of_mem_zip hx).1)

theorem volumeAt_nodup (levels : List Int) (vols : List K) (hnd : levels.Nodup) (hlen : vols.length = levels.length)
    (i : Nat) (hi : i < levels.length) : volumeAt levels vols levels[i] = vols.getD i 0 := by
  induction levels generalizing vols i with
  | nil => simp at hi
  | cons a t ih =>
    cases vols with
    | nil => simp at hlen
    | cons x xs =>
      cases i with
      | zero =>
        have h0 := volumeAt_notMem t xs a (List.nodup_cons.mp hnd).1
        unfold volumeAt at h0 ⊢
        simp only [List.getElem_cons_zero, List.zip_cons_cons, List.getD_cons_zero]
        rw [List.filter_cons_of_pos (by simp), List.map_cons, List.sum_cons, h0, add_zero]
      | succ j =>
        have hj : j < t.length := by simpa using hi
        have h0 := ih xs (List.nodup_cons.mp hnd).2 (by simpa using hlen) j hj
        unfold volumeAt at h0 ⊢
        simp only [List.getElem_cons_succ, List.zip_cons_cons, List.getD_cons_succ]
        rw [List.filter_cons_of_neg, h0]
        simp only [decide_eq_true_eq]
        intro e
        exact (List.nodup_cons.mp hnd).1 (e ▸ List.getElem_mem hj)

theorem searchLeft_grid (lo hi p : Int) (h1 : lo ≤ p) (h2 : p ≤ hi) :
    searchLeft (arange lo (hi + 1) 1) p = (p - lo).toNat := by
  have hs : (arange lo (hi + 1) 1).Pairwise (· ≤ ·) := by
    rw [List.pairwise_iff_getElem]
    intro i j hi hj hij
    rw [arange_getElem, arange_getElem]; omega
  have hL : ∀ i : Nat, i < (arange lo (hi + 1) 1).length ↔ lo + (i : Int) < hi + 1 := fun i => by
    rw [lt_arange_length (by norm_num), mul_one]
  have hle := searchLeft_le_length (arange lo (hi + 1) 1) p
  have key : ∀ j : Nat, j < (arange lo (hi + 1) 1).length →
      (j < searchLeft (arange lo (hi + 1) 1) p ↔ lo + (j : Int) < p) := fun j hj => by
    rw [lt_searchLeft hs _ _ hj, arange_getElem, mul_one]
  generalize searchLeft (arange lo (hi + 1) 1) p = s at *
  have hpL := (hL (p - lo).toNat).mpr (by omega)
  have hnot : ¬ (p - lo).toNat < s := by rw [key _ hpL]; omega
  by_contra hne
  have hlt : s < (p - lo).toNat := by omega
  have := (key s (by omega)).mpr (by omega)
  omega

/-- one bar: the aligned array gains, at each tick, the volume the bar recorded at that tick -/
theorem fancyAdd_levels (lo hi : Int) (a : List K) (levels : List Int) (v : List K)
    (hnd : levels.Nodup) (hlen : v.length = levels.length)
    (hin : ∀ p ∈ levels, lo ≤ p ∧ p ≤ hi) (k : Nat) (hk : k < a.length) :
    (fancyAdd a (levels.map (searchLeft (arange lo (hi + 1) 1))) v)[k]?
      = some (a.getD k 0 + volumeAt levels v (lo + k)) := by
  have hidx : levels.map (searchLeft (arange lo (hi + 1) 1)) = levels.map (fun p => (p - lo).toNat) :=
    List.map_congr_left (fun p hp => searchLeft_grid lo hi p (hin p hp).1 (hin p hp).2)
  rw [hidx]
  have hnd' : (levels.map (fun p => (p - lo).toNat)).Nodup := by
    rw [List.nodup_map_iff_inj_on hnd]
    intro x hx y hy e
    have := hin x hx; have := hin y hy
    omega
  unfold fancyAdd
  by_cases hmem : lo + (k : Int) ∈ levels
  · obtain ⟨i, hi', e⟩ := List.getElem_of_mem hmem
    have hik : (levels.map (fun p => (p - lo).toNat))[i]'(by simpa using hi') = k := by
      rw [List.getElem_map, e]; omega
    have := putAll_get_of_nodup a (levels.map (fun p => (p - lo).toNat))
      (List.zipWith (fun k x => a.getD k 0 + x) (levels.map (fun p => (p - lo).toNat)) v) hnd'
      (by simp [hlen]) i (by simpa using hi') (by rw [hik]; exact hk)
    rw [hik] at this
    rw [this, List.getElem?_zipWith, List.getElem?_eq_getElem (by simpa using hi'), hik,
      List.getElem?_eq_getElem (show i < v.length by omega), ← e, volumeAt_nodup levels v hnd hlen i hi',
      List.getD_eq_getElem _ _ (show i < v.length by omega)]
  · rw [putAll_get_of_notMem, List.getElem?_eq_getElem hk, volumeAt_notMem _ _ _ hmem, List.getD_eq_getElem _ _ hk,
      add_zero]
    intro hc
    obtain ⟨p, hp, e⟩ := List.mem_map.mp hc
    have := hin p hp
    exact hmem (by have : p = lo + (k : Int) := by omega
                   rwa [← this])

/-- A bar whose levels are distinct ticks inside the grid, with one volume per level. -/
def WellFormedBar (lo hi : Int) (b : FpBar K) : Prop :=
  b.levels.Nodup ∧ b.buy.length = b.levels.length ∧ b.sell.length = b.levels.length ∧
    ∀ p ∈ b.levels, lo ≤ p ∧ p ≤ hi

theorem alignFold_spec (lo hi : Int) (bars : List (FpBar K)) (acc : List K × List K)
    (h1 : acc.1.length = (arange lo (hi + 1) 1).length) (h2 : acc.2.length = (arange lo (hi + 1) 1).length)
    (hwf : ∀ b ∈ bars, WellFormedBar lo hi b) :
    let r := bars.foldl (alignStep (arange lo (hi + 1) 1)) acc
    r.1.length = (arange lo (hi + 1) 1).length ∧ r.2.length = (arange lo (hi + 1) 1).length ∧
    ∀ k : Nat, k < (arange lo (hi + 1) 1).length →
      r.1[k]? = some (acc.1.getD k 0 + (bars.map (fun b => volumeAt b.levels b.buy (lo + k))).sum) ∧
      r.2[k]? = some (acc.2.getD k 0 + (bars.map (fun b => volumeAt b.levels b.sell (lo + k))).sum) := by
  induction bars generalizing acc with
  | nil =>
    refine ⟨h1, h2, ?_⟩
    intro k hk
    simp only [List.foldl_nil, List.map_nil, List.sum_nil, add_zero]
    rw [List.getElem?_eq_getElem (by omega), List.getElem?_eq_getElem (by omega), List.getD_eq_getElem _ _ (by omega),
      List.getD_eq_getElem _ _ (by omega)]
    exact ⟨rfl, rfl⟩
  | cons b bs ih =>
    obtain ⟨w1, w2, w3, w4⟩ := hwf b List.mem_cons_self
    have l1 : (alignStep (arange lo (hi + 1) 1) acc b).1.length = (arange lo (hi + 1) 1).length := by
      rw [← h1]; exact fancyAdd_length _ _ _
    have l2 : (alignStep (arange lo (hi + 1) 1) acc b).2.length = (arange lo (hi + 1) 1).length := by
      rw [← h2]; exact fancyAdd_length _ _ _
    obtain ⟨i1, i2, i3⟩ := ih (alignStep (arange lo (hi + 1) 1) acc b) l1 l2
      (fun c hc => hwf c (List.mem_cons_of_mem _ hc))
    refine ⟨i1, i2, ?_⟩
    intro k hk
    have j1 := fancyAdd_levels lo hi acc.1 b.levels b.buy w1 w2 w4 k (by omega)
    have j2 := fancyAdd_levels lo hi acc.2 b.levels b.sell w1 w3 w4 k (by omega)
    have g1 : (alignStep (arange lo (hi + 1) 1) acc b).1.getD k 0
        = acc.1.getD k 0 + volumeAt b.levels b.buy (lo + k) := by
      rw [List.getD_eq_getElem?_getD]
      show (fancyAdd acc.1 _ b.buy)[k]?.getD 0 = _
      rw [j1]; rfl
    have g2 : (alignStep (arange lo (hi + 1) 1) acc b).2.getD k 0
        = acc.2.getD k 0 + volumeAt b.levels b.sell (lo + k) := by
      rw [List.getD_eq_getElem?_getD]
      show (fancyAdd acc.2 _ b.sell)[k]?.getD 0 = _
      rw [j2]; rfl
    have := i3 k hk
    rw [g1, g2] at this
    rw [List.foldl_cons, List.map_cons, List.sum_cons, List.map_cons, List.sum_cons, ← add_assoc, ← add_assoc]
    exact this

/-- Aligning a window of footprints: the grid is every tick from the window's low to its high, and the aligned volume
at a tick is the total volume recorded at that tick by the bars of the window. -/
theorem C39_align_exact (rnd : K → Int) (hmono : Monotone rnd) (bars : List (FpBar K)) (hne : bars ≠ [])
    (hwf : ∀ b ∈ bars, WellFormedBar (rnd b.low) (rnd b.high) b) :
    ∃ lo hi : Int,
      (∃ b ∈ bars, lo = rnd b.low) ∧ (∀ b ∈ bars, lo ≤ rnd b.low) ∧
      (∃ b ∈ bars, hi = rnd b.high) ∧ (∀ b ∈ bars, rnd b.high ≤ hi) ∧
      ∃ buy sell : List K, alignBars rnd bars = (arange lo (hi + 1) 1, buy, sell) ∧
        buy.length = (arange lo (hi + 1) 1).length ∧ sell.length = (arange lo (hi + 1) 1).length ∧
        ∀ k : Nat, k < (arange lo (hi + 1) 1).length →
          (arange lo (hi + 1) 1)[k]? = some (lo + k) ∧
          buy[k]? = some (bars.map (fun b => volumeAt b.levels b.buy (lo + k))).sum ∧
          sell[k]? = some (bars.map (fun b => volumeAt b.levels b.sell (lo + k))).sum := by
  have hl := npMin_spec (bars.map FpBar.low) (by simpa using hne)
  have hh := npMax_spec (bars.map FpBar.high) (by simpa using hne)
  obtain ⟨bl, hbl, ebl⟩ := List.mem_map.mp hl.1
  obtain ⟨bh, hbh, ebh⟩ := List.mem_map.mp hh.1
  have hlo : ∀ b ∈ bars, rnd (npMin (bars.map FpBar.low)) ≤ rnd b.low := fun b hb =>
    hmono (hl.2 _ (List.mem_map_of_mem hb))
  have hhi : ∀ b ∈ bars, rnd b.high ≤ rnd (npMax (bars.map FpBar.high)) := fun b hb =>
    hmono (hh.2 _ (List.mem_map_of_mem hb))
  refine ⟨rnd (npMin (bars.map FpBar.low)), rnd (npMax (bars.map FpBar.high)), ⟨bl, hbl, by rw [ebl]⟩, hlo,
    ⟨bh, hbh, by rw [ebh]⟩, hhi, ?_⟩
  have hwf' : ∀ b ∈ bars, WellFormedBar (rnd (npMin (bars.map FpBar.low))) (rnd (npMax (bars.map FpBar.high))) b := by
    intro b hb
    obtain ⟨w1, w2, w3, w4⟩ := hwf b hb
    exact ⟨w1, w2, w3, fun p hp => ⟨le_trans (hlo b hb) (w4 p hp).1, le_trans (w4 p hp).2 (hhi b hb)⟩⟩
  unfold alignBars tickGrid
  simp only []
  generalize rnd (npMin (bars.map FpBar.low)) = lo at *
  generalize rnd (npMax (bars.map FpBar.high)) = hi at *
  have := alignFold_spec lo hi bars (List.replicate (arange lo (hi + 1) 1).length 0,
    List.replicate (arange lo (hi + 1) 1).length 0) (by simp) (by simp) hwf'
  obtain ⟨i1, i2, i3⟩ := this
  refine ⟨_, _, rfl, i1, i2, ?_⟩
  intro k hk
  obtain ⟨j1, j2⟩ := i3 k hk
  refine ⟨?_, ?_, ?_⟩
  · rw [List.getElem?_eq_getElem hk, arange_getElem, mul_one]
  · rw [j1, List.getD_eq_getElem _ _ (by simpa using hk), List.getElem_replicate, zero_add]
  · rw [j2, List.getD_eq_getElem _ _ (by simpa using hk), List.getElem_replicate, zero_add]

example : alignBars (fun x : ℚ => x.floor) [⟨0, 12, 10, [10, 12], [1, 2], [3, 4]⟩, ⟨1, 12, 11, [11, 12], [5, 6], [7, 8]⟩]
    = ([10, 11, 12], [1, 5, 8], [3, 7, 12]) := by decide +kernel

/-- Duplicate levels inside one bar would lose volume: the indexed `+=` keeps only the last one.  (Footprints built by
this package have distinct levels.) -/
theorem C39_duplicate_levels_lose_volume : ∃ b : FpBar ℚ,
    (alignBars (fun x : ℚ => x.floor) [b]).2.1.sum < b.buy.sum :=
  ⟨⟨0, 10, 10, [10, 10], [1, 2], [0, 0]⟩, by decide +kernel⟩

/-- The window of `aggregate_footprint` on ascending timestamps: exactly the bars with timestamp in
`[start, end]`, when there is one. -/
theorem C39_window_exact (bars : List (FpBar K)) (startTs endTs : Int)
    (hs : (bars.map FpBar.ts).Pairwise (· ≤ ·))
    (hex : ∃ b ∈ bars, startTs ≤ b.ts ∧ b.ts ≤ endTs) :
    fpWindow bars startTs endTs = bars.filter (fun b => decide (startTs ≤ b.ts ∧ b.ts ≤ endTs)) := by
  have key : ∀ (j : Nat) (hj : j < bars.length),
      (j < searchLeft (bars.map FpBar.ts) startTs ↔ bars[j].ts < startTs) ∧
      (j < searchRight (bars.map FpBar.ts) endTs ↔ bars[j].ts ≤ endTs) := by
    intro j hj
    rw [lt_searchLeft hs _ _ (by simpa using hj), lt_searchRight hs _ _ (by simpa using hj), List.getElem_map]
    exact ⟨Iff.rfl, Iff.rfl⟩
  have hle := searchRight_le_length (bars.map FpBar.ts) endTs
  rw [List.length_map] at hle
  unfold fpWindow
  simp only []
  generalize searchLeft (bars.map FpBar.ts) startTs = s at *
  generalize searchRight (bars.map FpBar.ts) endTs = e at *
  have hlt : s < e := by
    obtain ⟨b, hb, h1, h2⟩ := hex
    obtain ⟨i, hi, rfl⟩ := List.getElem_of_mem hb
    have := key i hi
    have a1 : ¬ i < s := by rw [this.1]; omega
    have a2 : i < e := this.2.mpr h2
    omega
  rw [if_neg (by omega)]
  have hsplit : bars = bars.take s ++ ((bars.take e).drop s ++ bars.drop e) := by
    have h1 : bars.take s ++ (bars.take e).drop s = bars.take e := by
      have : bars.take s = (bars.take e).take s := by rw [List.take_take, min_eq_left (by omega)]
      rw [this, List.take_append_drop]
    rw [← List.append_assoc, h1, List.take_append_drop]
  conv_rhs => rw [hsplit]
  rw [List.filter_append, List.filter_append]
  have f1 : (bars.take s).filter (fun b => decide (startTs ≤ b.ts ∧ b.ts ≤ endTs)) = [] := by
    rw [List.filter_eq_nil_iff]
    intro b hb
    obtain ⟨i, hi, rfl⟩ := List.getElem_of_mem hb
    rw [List.getElem_take]
    rw [List.length_take] at hi
    have := (key i (by omega)).1.mp (by omega)
    simp only [decide_eq_true_eq]; omega
  have f2 : ((bars.take e).drop s).filter (fun b => decide (startTs ≤ b.ts ∧ b.ts ≤ endTs)) = (bars.take e).drop s := by
    rw [List.filter_eq_self]
    intro b hb
    obtain ⟨i, hi, rfl⟩ := List.getElem_of_mem hb
    rw [List.length_drop, List.length_take] at hi
    rw [List.getElem_drop, List.getElem_take]
    have k1 := (key (s + i) (by omega))
    have a1 : ¬ bars[s + i].ts < startTs := by rw [← k1.1]; omega
    have a2 := k1.2.mp (by omega)
    simp only [decide_eq_true_eq]; omega
  have f3 : (bars.drop e).filter (fun b => decide (startTs ≤ b.ts ∧ b.ts ≤ endTs)) = [] := by
    rw [List.filter_eq_nil_iff]
    intro b hb
    obtain ⟨i, hi, rfl⟩ := List.getElem_of_mem hb
    rw [List.length_drop] at hi
    rw [List.getElem_drop]
    have k1 := (key (e + i) (by omega))
    have a1 : ¬ bars[e + i].ts ≤ endTs := by rw [← k1.2]; omega
    simp only [decide_eq_true_eq]; omega
  rw [f1, f2, f3]; simp

example : fpWindow [⟨0, 1, 1, [], [], []⟩, ⟨5, 1, 1, [], [], []⟩, ⟨9, 1, 1, [], [], []⟩] 3 9
    = ([⟨5, 1, 1, [], [], []⟩, ⟨9, 1, 1, [], [], []⟩] : List (FpBar ℚ)) := by decide +kernel

/-- When no bar has its timestamp in the window, the code takes the last bar before it; with no bar before it the window is
empty (and the caller fails). -/
theorem C39_window_fallback (bars : List (FpBar K)) (startTs endTs : Int)
    (hs : (bars.map FpBar.ts).Pairwise (· ≤ ·)) (hle : startTs ≤ endTs)
    (hex : ∀ b ∈ bars, ¬ (startTs ≤ b.ts ∧ b.ts ≤ endTs)) :
    fpWindow bars startTs endTs = (bars.filter (fun b => decide (b.ts < startTs))).getLast?.toList := by
  have hkl : ∀ (j : Nat) (hj : j < bars.length),
      (j < searchLeft (bars.map FpBar.ts) startTs ↔ bars[j].ts < startTs) ∧
      (j < searchRight (bars.map FpBar.ts) endTs ↔ bars[j].ts ≤ endTs) := by
    intro j hj
    rw [lt_searchLeft hs _ _ (by simpa using hj), lt_searchRight hs _ _ (by simpa using hj), List.getElem_map]
    exact ⟨Iff.rfl, Iff.rfl⟩
  have hl1 := searchRight_le_length (bars.map FpBar.ts) endTs
  have hl2 := searchLeft_le_length (bars.map FpBar.ts) startTs
  rw [List.length_map] at hl1 hl2
  have hfil : bars.filter (fun b => decide (b.ts < startTs)) = bars.take (searchLeft (bars.map FpBar.ts) startTs) := by
    conv_lhs => rw [← List.take_append_drop (searchLeft (bars.map FpBar.ts) startTs) bars]
    rw [List.filter_append, List.filter_eq_self.mpr, List.filter_eq_nil_iff.mpr, List.append_nil]
    · intro b hb
      obtain ⟨i, hi, rfl⟩ := List.getElem_of_mem hb
      rw [List.length_drop] at hi
      rw [List.getElem_drop]
      have := (hkl (searchLeft (bars.map FpBar.ts) startTs + i) (by omega)).1
      simp only [decide_eq_true_eq]
      rw [← this]; omega
    · intro b hb
      obtain ⟨i, hi, rfl⟩ := List.getElem_of_mem hb
      rw [List.length_take] at hi
      rw [List.getElem_take]
      simp only [decide_eq_true_eq]
      exact (hkl i (by omega)).1.mp (by omega)
  rw [hfil]
  unfold fpWindow
  simp only []
  generalize searchLeft (bars.map FpBar.ts) startTs = s at *
  generalize searchRight (bars.map FpBar.ts) endTs = e at *
  have hse : s = e := by
    rcases Nat.lt_trichotomy s e with h | h | h
    · have k := hkl s (by omega)
      have a1 : ¬ bars[s].ts < startTs := by rw [← k.1]; omega
      exact absurd ⟨by omega, k.2.mp h⟩ (hex _ (List.getElem_mem (by omega : s < bars.length)))
    · exact h
    · have k := hkl e (by omega)
      have a1 : ¬ bars[e].ts ≤ endTs := by rw [← k.2]; omega
      have a2 := k.1.mp h
      omega
  subst hse
  rw [if_pos rfl]
  rcases Nat.eq_zero_or_pos s with h0 | h0
  · subst h0; simp
  · obtain ⟨m, rfl⟩ : ∃ m, s = m + 1 := ⟨s - 1, by omega⟩
    rw [Nat.add_sub_cancel, List.take_add_one, List.getElem?_eq_getElem (by omega : m < bars.length),
      Option.toList_some, List.getLast?_concat,
      List.drop_append_of_le_length (by rw [List.length_take]; omega),
      List.drop_eq_nil_of_le (by rw [List.length_take]; omega)]
    rfl

example : fpWindow [⟨0, 1, 1, [], [], []⟩, ⟨5, 1, 1, [], [], []⟩, ⟨9, 1, 1, [], [], []⟩] 6 8
    = ([⟨5, 1, 1, [], [], []⟩] : List (FpBar ℚ)) := by decide +kernel

end FinML

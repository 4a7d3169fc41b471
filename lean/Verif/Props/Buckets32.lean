/-
C142: levels and buckets of the volume profile in float32.
-/
import Verif.Model.Float64Buckets
import Verif.Props.Buckets
import Verif.Props.VolumeWindows
import Verif.Props.Profile32
import Mathlib.Data.Int.Interval

set_option linter.unusedSectionVars false

namespace FinML

/-! ### The aligned volumes -/

theorem fancyAdd32_levels (lo hi : Int) (a : List ℚ) (levels : List Int) (v : List ℚ) (h32 : AllF32 a)
    (hnd : levels.Nodup) (hlen : v.length = levels.length)
    (hin : ∀ p ∈ levels, lo ≤ p ∧ p ≤ hi) (k : Nat) (hk : k < a.length) :
    (fancyAdd32 a (levels.map (searchLeft (arange lo (hi + 1) 1))) v)[k]?
      = some (f32 (a.getD k 0 + volumeAt levels v (lo + k))) := by
  have hidx : levels.map (searchLeft (arange lo (hi + 1) 1)) = levels.map (fun p => (p - lo).toNat) :=
    List.map_congr_left (fun p hp => searchLeft_grid lo hi p (hin p hp).1 (hin p hp).2)
  rw [hidx]
  have hnd' : (levels.map (fun p => (p - lo).toNat)).Nodup := by
    rw [List.nodup_map_iff_inj_on hnd]
    intro x hx y hy e
    have := hin x hx; have := hin y hy
    omega
  unfold fancyAdd32
  by_cases hmem : lo + (k : Int) ∈ levels
  · obtain ⟨i, hi', e⟩ := List.getElem_of_mem hmem
    have hik : (levels.map (fun p => (p - lo).toNat))[i]'(by simpa using hi') = k := by
      rw [List.getElem_map, e]; omega
    have := putAll_get_of_nodup a (levels.map (fun p => (p - lo).toNat))
      (List.zipWith (fun k x => f32 (a.getD k 0 + x)) (levels.map (fun p => (p - lo).toNat)) v) hnd'
      (by simp [hlen]) i (by simpa using hi') (by rw [hik]; exact hk)
    rw [hik] at this
    rw [this, List.getElem?_zipWith, List.getElem?_eq_getElem (by simpa using hi'), hik,
      List.getElem?_eq_getElem (show i < v.length by omega), ← e, volumeAt_nodup levels v hnd hlen i hi',
      List.getD_eq_getElem _ _ (show i < v.length by omega)]
  · rw [putAll_get_of_notMem, List.getElem?_eq_getElem hk, volumeAt_notMem _ _ _ hmem, List.getD_eq_getElem _ _ hk,
      add_zero, h32 _ (List.getElem_mem hk)]
    intro hc
    obtain ⟨p, hp, e⟩ := List.mem_map.mp hc
    have := hin p hp
    exact hmem (by have : p = lo + (k : Int) := by omega
                   rwa [← this])

theorem fancyAdd32_length (a : List ℚ) (idx : List Nat) (v : List ℚ) : (fancyAdd32 a idx v).length = a.length :=
  putAll_length _ _ _

theorem fancyAdd32_all (lo hi : Int) (a : List ℚ) (levels : List Int) (v : List ℚ) (h32 : AllF32 a)
    (hnd : levels.Nodup) (hlen : v.length = levels.length) (hin : ∀ p ∈ levels, lo ≤ p ∧ p ≤ hi) :
    AllF32 (fancyAdd32 a (levels.map (searchLeft (arange lo (hi + 1) 1))) v) := by
  intro x hx
  obtain ⟨k, hk, e⟩ := List.getElem_of_mem hx
  have h := fancyAdd32_levels lo hi a levels v h32 hnd hlen hin k (by rwa [fancyAdd32_length] at hk)
  rw [List.getElem?_eq_getElem hk, e] at h
  rw [Option.some.inj h, f32_idem]

theorem alignFold32_spec (lo hi : Int) (bars : List (FpBar ℚ)) (acc : List ℚ × List ℚ)
    (h1 : acc.1.length = (arange lo (hi + 1) 1).length) (h2 : acc.2.length = (arange lo (hi + 1) 1).length)
    (f1 : AllF32 acc.1) (f2 : AllF32 acc.2)
    (hwf : ∀ b ∈ bars, WellFormedBar lo hi b) :
    let r := bars.foldl (alignStep32 (arange lo (hi + 1) 1)) acc
    r.1.length = (arange lo (hi + 1) 1).length ∧ r.2.length = (arange lo (hi + 1) 1).length ∧ AllF32 r.1 ∧ AllF32 r.2 ∧
    ∀ k : Nat, k < (arange lo (hi + 1) 1).length →
      r.1[k]? = some ((bars.map (fun b => volumeAt b.levels b.buy (lo + k))).foldl (fun a x => f32 (a + x)) (acc.1.getD k 0)) ∧
      r.2[k]? = some ((bars.map (fun b => volumeAt b.levels b.sell (lo + k))).foldl (fun a x => f32 (a + x)) (acc.2.getD k 0)) := by
  induction bars generalizing acc with
  | nil =>
    refine ⟨h1, h2, f1, f2, ?_⟩
    intro k hk
    simp only [List.foldl_nil, List.map_nil]
    rw [List.getElem?_eq_getElem (by omega), List.getElem?_eq_getElem (by omega), List.getD_eq_getElem _ _ (by omega),
      List.getD_eq_getElem _ _ (by omega)]
    exact ⟨rfl, rfl⟩
  | cons b bs ih =>
    obtain ⟨w1, w2, w3, w4⟩ := hwf b List.mem_cons_self
    have l1 : (alignStep32 (arange lo (hi + 1) 1) acc b).1.length = (arange lo (hi + 1) 1).length := by
      rw [← h1]; exact fancyAdd32_length _ _ _
    have l2 : (alignStep32 (arange lo (hi + 1) 1) acc b).2.length = (arange lo (hi + 1) 1).length := by
      rw [← h2]; exact fancyAdd32_length _ _ _
    obtain ⟨i1, i2, i4, i5, i3⟩ := ih (alignStep32 (arange lo (hi + 1) 1) acc b) l1 l2
      (fancyAdd32_all lo hi acc.1 b.levels b.buy f1 w1 w2 w4) (fancyAdd32_all lo hi acc.2 b.levels b.sell f2 w1 w3 w4)
      (fun c hc => hwf c (List.mem_cons_of_mem _ hc))
    refine ⟨i1, i2, i4, i5, ?_⟩
    intro k hk
    have j1 := fancyAdd32_levels lo hi acc.1 b.levels b.buy f1 w1 w2 w4 k (by omega)
    have j2 := fancyAdd32_levels lo hi acc.2 b.levels b.sell f2 w1 w3 w4 k (by omega)
    have g1 : (alignStep32 (arange lo (hi + 1) 1) acc b).1.getD k 0
        = f32 (acc.1.getD k 0 + volumeAt b.levels b.buy (lo + k)) := by
      rw [List.getD_eq_getElem?_getD]
      show (fancyAdd32 acc.1 _ b.buy)[k]?.getD 0 = _
      rw [j1]; rfl
    have g2 : (alignStep32 (arange lo (hi + 1) 1) acc b).2.getD k 0
        = f32 (acc.2.getD k 0 + volumeAt b.levels b.sell (lo + k)) := by
      rw [List.getD_eq_getElem?_getD]
      show (fancyAdd32 acc.2 _ b.sell)[k]?.getD 0 = _
      rw [j2]; rfl
    have := i3 k hk
    rw [g1, g2] at this
    exact this

/-- **C142.** The aligned volume of a tick is the float32 sum, in the order of the bars, of the volumes the bars recorded at that tick; the grid is that of
exact arithmetic. -/
theorem C142_levels (rnd : ℚ → Int) (hmono : Monotone rnd) (bars : List (FpBar ℚ)) (hne : bars ≠ [])
    (hwf : ∀ b ∈ bars, WellFormedBar (rnd b.low) (rnd b.high) b) :
    ∃ lo hi : Int,
      (∃ b ∈ bars, lo = rnd b.low) ∧ (∀ b ∈ bars, lo ≤ rnd b.low) ∧
      (∃ b ∈ bars, hi = rnd b.high) ∧ (∀ b ∈ bars, rnd b.high ≤ hi) ∧
      ∃ buy sell : List ℚ, alignBars32 rnd bars = (arange lo (hi + 1) 1, buy, sell) ∧
        buy.length = (arange lo (hi + 1) 1).length ∧ sell.length = (arange lo (hi + 1) 1).length ∧
        ∀ k : Nat, k < (arange lo (hi + 1) 1).length →
          (arange lo (hi + 1) 1)[k]? = some (lo + k) ∧
          buy[k]? = some (npSum32 (bars.map (fun b => volumeAt b.levels b.buy (lo + k)))) ∧
          sell[k]? = some (npSum32 (bars.map (fun b => volumeAt b.levels b.sell (lo + k)))) := by
  have hl := npMin_spec (bars.map FpBar.low) (by simpa using hne)
  have hh := npMax_spec (bars.map FpBar.high) (by simpa using hne)
  obtain ⟨bl, hbl, ebl⟩ := List.mem_map.mp hl.1
  obtain ⟨bh, hbh, ebh⟩ := List.mem_map.mp hh.1
  have hlo : ∀ b ∈ bars, rnd (npMin (bars.map FpBar.low)) ≤ rnd b.low := fun b hb =>
    hmono (hl.2 _ (List.mem_map_of_mem hb))
  have hhi : ∀ b ∈ bars, rnd b.high ≤ rnd (npMax (bars.map FpBar.high)) := fun b hb =>
    hmono (hh.2 _ (List.mem_map_of_mem hb))
  refine ⟨rnd (npMin (bars.map FpBar.low)), rnd (npMax (bars.map FpBar.high)), ⟨bl, hbl, by rw [ebl]⟩, hlo,
    ⟨bh, hbh, by rw [ebh]⟩, hhi, ?_⟩
  have hwf' : ∀ b ∈ bars, WellFormedBar (rnd (npMin (bars.map FpBar.low))) (rnd (npMax (bars.map FpBar.high))) b := by
    intro b hb
    obtain ⟨w1, w2, w3, w4⟩ := hwf b hb
    exact ⟨w1, w2, w3, fun p hp => ⟨le_trans (hlo b hb) (w4 p hp).1, le_trans (w4 p hp).2 (hhi b hb)⟩⟩
  unfold alignBars32 tickGrid
  simp only []
  generalize rnd (npMin (bars.map FpBar.low)) = lo at *
  generalize rnd (npMax (bars.map FpBar.high)) = hi at *
  have := alignFold32_spec lo hi bars (List.replicate (arange lo (hi + 1) 1).length 0,
    List.replicate (arange lo (hi + 1) 1).length 0) (by simp) (by simp) (fun x hx => by rw [(List.mem_replicate.mp hx).2, f32_zero]) (fun x hx => by rw [(List.mem_replicate.mp hx).2, f32_zero]) hwf'
  obtain ⟨i1, i2, _, _, i3⟩ := this
  refine ⟨_, _, rfl, i1, i2, ?_⟩
  intro k hk
  obtain ⟨j1, j2⟩ := i3 k hk
  refine ⟨?_, ?_, ?_⟩
  · rw [List.getElem?_eq_getElem hk, arange_getElem, mul_one]
  · rw [j1, List.getD_eq_getElem _ _ (by simpa using hk), List.getElem_replicate]; rfl
  · rw [j2, List.getD_eq_getElem _ _ (by simpa using hk), List.getElem_replicate]; rfl

example : alignBars32 (fun x : ℚ => x.floor) [⟨0, 12, 10, [10, 12], [16777216, 2], [3, 4]⟩, ⟨1, 12, 10, [10, 11, 12], [1, 5, 6], [1, 7, 8]⟩]
    = ([10, 11, 12], [16777216, 5, 8], [4, 7, 12]) := by decide +kernel

/-! ### The buckets -/

theorem bucketAdd32_length (n : Int) (out : List ℚ) (idx : List Int) (vols : List ℚ) :
    (bucketAdd32 n out idx vols).length = out.length := by
  unfold bucketAdd32
  generalize idx.zip vols = z
  induction z generalizing out with
  | nil => rfl
  | cons p t ih => rw [List.foldl_cons, ih]; split <;> simp

theorem bucketAdd32_get (n : Int) (out : List ℚ) (idx : List Int) (vols : List ℚ)
    (h : ∀ i ∈ idx, 0 ≤ i ∧ i ≤ n) (k : Nat) :
    (bucketAdd32 n out idx vols)[k]?
      = out[k]?.map (fun a => (((idx.zip vols).filter (fun p => decide (p.1 = (k : Int)))).map Prod.snd).foldl (fun a x => f32 (a + x)) a) := by
  unfold bucketAdd32
  have h' : ∀ p ∈ idx.zip vols, 0 ≤ p.1 ∧ p.1 ≤ n := fun p hp => h p.1 (List.of_mem_zip hp).1
  revert h'
  generalize idx.zip vols = z
  intro h'
  induction z generalizing out with
  | nil => simp
  | cons p t ih =>
    have hp := h' p List.mem_cons_self
    rw [List.foldl_cons, if_pos hp, ih _ (fun q hq => h' q (List.mem_cons_of_mem _ hq)), List.getElem?_modify]
    by_cases hk : p.1 = (k : Int)
    · have : p.1.toNat = k := by omega
      rw [List.filter_cons_of_pos (by simpa using hk), List.map_cons, this]
      cases out[k]? with
      | none => rfl
      | some x => simp
    · have : p.1.toNat ≠ k := by omega
      rw [List.filter_cons_of_neg (by simpa using hk)]
      cases out[k]? with
      | none => rfl
      | some x => simp [this]

/-- **C142.** The buckets and their representatives are those of C39; the volume of a bucket is the float32 sum of the volumes of its levels, in ascending order. -/
theorem C142_bucket (levels : List Int) (vols : List ℚ) (nBins : Int) (hne : levels ≠ [])
    (hs : levels.Pairwise (· ≤ ·)) (hn : 0 < nBins) (hlen : vols.length = levels.length) :
    ∃ (bw : Int) (reps : List Int) (out : List ℚ),
      bucketPriceLevels32 levels vols nBins = .ok (reps, out) ∧
      bw = bucketWidth (levels.getLast hne - levels.head hne) nBins ∧
      1 ≤ bw ∧ bw % 2 = 1 ∧
      (levels.getLast hne - levels.head hne) / nBins ≤ bw ∧
      (bw ≤ (levels.getLast hne - levels.head hne) / nBins + 1 ∨ bw = 1) ∧
      (reps.length : Int) = (levels.getLast hne - levels.head hne) / bw + 1 ∧
      out.length = reps.length ∧
      ∀ k : Nat, k < reps.length →
        reps[k]? = some (if levels.head hne + k * bw = levels.getLast hne then levels.getLast hne
                         else levels.head hne + k * bw + (bw - 1) / 2) ∧
        out[k]? = some (npSum32 (((levels.zip vols).filter (fun p => decide
          (levels.head hne + k * bw ≤ p.1 ∧ p.1 < levels.head hne + (k + 1) * bw))).map Prod.snd)) := by
  unfold bucketPriceLevels32
  rw [if_neg hne, if_neg (ne_of_gt hn), intMin_sorted hne hs, intMax_sorted hne hs]
  have hall : ∀ x ∈ levels, levels.head hne ≤ x ∧ x ≤ levels.getLast hne := fun x hx =>
    ⟨head_le_of_sorted hne hs x hx, le_getLast_of_sorted hne hs x hx⟩
  have hmnmx : levels.head hne ≤ levels.getLast hne := (hall _ (List.getLast_mem hne)).1
  have hlastmem := List.getLast?_eq_getLast_of_ne_nil hne
  generalize hmn : levels.head hne = mn at *
  generalize hmx : levels.getLast hne = mx at *
  obtain ⟨b1, b2, b3, b4⟩ := bucketWidth_spec (mx - mn) nBins
  generalize hbw : bucketWidth (mx - mn) nBins = bw at *
  have hbpos : 0 < bw := by omega
  simp only [hbw]
  -- the indices
  have hidx : levels.map (fun p => (searchRight (if (arange mn (mx + bw) bw).length < 2 then [mn, mx + 1]
        else arange mn (mx + bw) bw) p : Int) - 1) = levels.map (fun p => (p - mn) / bw) := by
    apply List.map_congr_left
    intro p hp
    have hpr := hall p hp
    by_cases hL : (arange mn (mx + bw) bw).length < 2
    · rw [if_pos hL]
      have hlen1 := edges_length mn mx bw hbpos hmnmx
      have hq0 : 0 ≤ (mx - mn) / bw := Int.ediv_nonneg (by omega) hbpos.le
      have hdm := Int.mul_ediv_add_emod (mx - mn) bw
      have hz : ((arange mn (mx + bw) bw).length - 1 : Nat) = 0 := by omega
      rw [hz] at hlen1
      have hq : (mx - mn) / bw = 0 ∧ (mx - mn) % bw = 0 := by
        split at hlen1 <;> constructor <;> omega
      rw [hq.1, hq.2] at hdm
      have hpm : p = mn := by simp at hdm; omega
      have hmm : mx = mn := by simp at hdm; omega
      subst hpm; subst hmm
      simp [searchRight]
    · rw [if_neg hL]; exact searchRight_edges mn mx bw p hbpos hpr.1 hpr.2
  rw [hidx]
  have hlast : (levels.map (fun p => (p - mn) / bw)).getLastD 0 = (mx - mn) / bw := by
    rw [List.getLastD_eq_getLast?, List.getLast?_map, hlastmem]; rfl
  rw [hlast]
  have hnl := edges_length mn mx bw hbpos hmnmx
  generalize hN : (arange mn (mx + bw) bw).length - 1 = N at *
  have hq0 : 0 ≤ (mx - mn) / bw := Int.ediv_nonneg (by omega) hbpos.le
  have hdm := Int.mul_ediv_add_emod (mx - mn) bw
  have hm0 := Int.emod_nonneg (mx - mn) (ne_of_gt hbpos)
  have hm1 := Int.emod_lt_of_pos (mx - mn) hbpos
  have hidxr : ∀ i ∈ levels.map (fun p => (p - mn) / bw), 0 ≤ i ∧ i ≤ (mx - mn) / bw := by
    intro i hi
    obtain ⟨p, hp, rfl⟩ := List.mem_map.mp hi
    have := hall p hp
    exact ⟨Int.ediv_nonneg (by omega) hbpos.le, Int.ediv_le_ediv hbpos (by omega)⟩
  have hzip : ∀ k : Nat, (((levels.map (fun p => (p - mn) / bw)).zip vols).filter
        (fun p => decide (p.1 = (k : Int)))).map Prod.snd
      = ((levels.zip vols).filter (fun p => decide
          (mn + k * bw ≤ p.1 ∧ p.1 < mn + (k + 1) * bw))).map Prod.snd := by
    intro k
    rw [List.zip_map_left, List.filter_map, List.map_map]
    have : (Prod.snd ∘ Prod.map (fun p => (p - mn) / bw) id : Int × ℚ → ℚ) = Prod.snd := by funext x; rfl
    rw [this]
    congr 1
    apply List.filter_congr
    intro x _
    simp only [Function.comp, Prod.map]
    have hiff : (x.1 - mn) / bw = (k : Int) ↔ (mn + k * bw ≤ x.1 ∧ x.1 < mn + (k + 1) * bw) := by
      constructor
      · intro h
        have c1 := Int.ediv_mul_le (x.1 - mn) (ne_of_gt hbpos)
        have c2 := Int.lt_ediv_add_one_mul_self (x.1 - mn) hbpos
        rw [h] at c1 c2
        omega
      · rintro ⟨h1, h2⟩
        apply le_antisymm
        · have : (x.1 - mn) / bw < (k : Int) + 1 := Int.ediv_lt_of_lt_mul hbpos (by omega)
          omega
        · exact Int.le_ediv_of_mul_le hbpos (by omega)
    by_cases hh : (x.1 - mn) / bw = (k : Int)
    · simp only [hh, hiff.mp hh, and_self, decide_true]
    · have hh2 : ¬ (mn + k * bw ≤ x.1 ∧ x.1 < mn + (k + 1) * bw) := fun c => hh (hiff.mpr c)
      rw [decide_eq_false hh, decide_eq_false hh2]
  have hmids : ∀ k : Nat, k < N → ((List.zipWith (fun a b => (a + b - 1) / 2)
      (if (arange mn (mx + bw) bw).length < 2 then [mn, mx + 1] else arange mn (mx + bw) bw).dropLast
      (if (arange mn (mx + bw) bw).length < 2 then [mn, mx + 1] else arange mn (mx + bw) bw).tail).take N)[k]?
        = some (mn + (k : Int) * bw + (bw - 1) / 2) := by
    intro k hk
    rw [if_neg (by omega)]
    exact mids_get mn bw b2 _ _ rfl (fun i h => arange_getElem mn (mx + bw) bw i h) N k hN.symm hk
  have hmidlen : ((List.zipWith (fun a b => (a + b - 1) / 2)
      (if (arange mn (mx + bw) bw).length < 2 then [mn, mx + 1] else arange mn (mx + bw) bw).dropLast
      (if (arange mn (mx + bw) bw).length < 2 then [mn, mx + 1] else arange mn (mx + bw) bw).tail).take N).length
        = N := by
    rw [List.length_take, List.length_zipWith, List.length_dropLast, List.length_tail]
    split
    · simp only [List.length_cons, List.length_nil]; omega
    · omega
  generalize ((List.zipWith (fun a b => (a + b - 1) / 2)
      (if (arange mn (mx + bw) bw).length < 2 then [mn, mx + 1] else arange mn (mx + bw) bw).dropLast
      (if (arange mn (mx + bw) bw).length < 2 then [mn, mx + 1] else arange mn (mx + bw) bw).tail).take N) = mids at *
  by_cases hr : (mx - mn) % bw = 0
  · rw [if_pos hr] at hnl
    have hNq : (mx - mn) / bw = (N : Int) := by omega
    rw [if_pos hNq]
    rw [hNq] at hidxr
    have hmxN : mn + (N : Int) * bw = mx := by
      rw [hr, hNq] at hdm
      have : bw * (N : Int) = (N : Int) * bw := by ring
      omega
    refine ⟨bw, _, _, rfl, rfl, b1, b2, b3, b4, ?_, ?_, ?_⟩
    · rw [List.length_append, hmidlen, hNq]; simp
    · rw [bucketAdd32_length, List.length_append, hmidlen]; simp
    · intro k hk
      rw [List.length_append, hmidlen] at hk
      simp only [List.length_singleton] at hk
      constructor
      · by_cases hkN : k < N
        · rw [List.getElem?_append_left (by omega), hmids k hkN, if_neg]
          have : ((k : Int) + 1) * bw ≤ (N : Int) * bw :=
            mul_le_mul_of_nonneg_right (by exact_mod_cast hkN) hbpos.le
          have e : ((k : Int) + 1) * bw = (k : Int) * bw + bw := by ring
          omega
        · have : k = N := by omega
          subst this
          rw [List.getElem?_append_right (by omega), hmidlen, if_pos hmxN]; simp
      · rw [bucketAdd32_get _ _ _ _ hidxr, hzip, List.getElem?_replicate, if_pos (by omega)]; rfl
  · rw [if_neg hr] at hnl
    have hNq : (mx - mn) / bw + 1 = (N : Int) := by omega
    rw [if_neg (by omega)]
    refine ⟨bw, _, _, rfl, rfl, b1, b2, b3, b4, ?_, ?_, ?_⟩
    · rw [hmidlen]; omega
    · rw [bucketAdd32_length, hmidlen]; simp
    · intro k hk
      rw [hmidlen] at hk
      constructor
      · rw [hmids k hk, if_neg]
        intro hc
        apply hr
        have : mx - mn = (k : Int) * bw := by omega
        rw [this]; exact Int.mul_emod_left _ _
      · rw [bucketAdd32_get _ _ _ _ (fun i hi => ⟨(hidxr i hi).1, by have := (hidxr i hi).2; omega⟩), hzip,
          List.getElem?_replicate, if_pos hk]; rfl

example : bucketPriceLevels32 [100, 101, 102, 103, 104, 105, 106] [16777216, 1, 1, 4, 5, 6, 7] 2
    = .ok ([101, 104, 106], [16777216, 15, 7]) := by decide +kernel

/-- **C142.** Row `i` of the rolling profile is the float32 profile of exactly the bars with timestamp in `[ts_i - w, ts_i]`; bars earlier than `ts_0 + w` get zeros. -/
theorem C142_rolling (rnd : ℚ → Int) (bars : List (FpBar ℚ)) (w : Int) (nBins : Option Int) (pct : ℚ)
    (hs : (bars.map FpBar.ts).Pairwise (· ≤ ·)) (hw : 0 ≤ w) (i : Nat) (hi : i < bars.length) :
    (volumeProfileRolling32 rnd bars w nBins pct)[i]? = some
      (if bars[i].ts < (bars[0]'(by omega)).ts + w then .ok ⟨0, 0, 0, 0⟩
       else
        let a := alignBars32 rnd (bars.filter (fun b => decide (bars[i].ts - w ≤ b.ts ∧ b.ts ≤ bars[i].ts)))
        profileOf32 a.1 (List.zipWith (fun a b => f32 (a + b)) a.2.1 a.2.2) nBins pct) := by
  unfold volumeProfileRolling32
  simp only []
  rw [tabulate_get?, if_pos hi]
  have hhead : (bars.map FpBar.ts).headD 0 = (bars[0]'(by omega)).ts := by
    cases bars with
    | nil => simp at hi
    | cons b t => rfl
  rw [hhead]
  have hcond : i < searchLeft (bars.map FpBar.ts) ((bars[0]'(by omega)).ts + w) ↔ bars[i].ts < (bars[0]'(by omega)).ts + w := by
    rw [lt_searchLeft hs _ _ (by simpa using hi), List.getElem_map]
  by_cases h : bars[i].ts < (bars[0]'(by omega)).ts + w
  · rw [if_pos h, if_pos (hcond.mpr h)]
  · rw [if_neg h, if_neg (fun c => h (hcond.mp c))]
    unfold rollingAt32 aggregateFootprint32
    have hget : (bars.map FpBar.ts).getD i 0 = bars[i].ts := by
      rw [List.getD_eq_getElem _ _ (by simpa using hi), List.getElem_map]
    simp only []
    rw [hget, C39_window_exact bars _ _ hs ⟨bars[i], List.getElem_mem hi, by omega, le_refl _⟩]
    have hmem : bars[i] ∈ bars.filter (fun b => decide (bars[i].ts - w ≤ b.ts ∧ b.ts ≤ bars[i].ts)) := by
      rw [List.mem_filter]
      exact ⟨List.getElem_mem hi, by simp; omega⟩
    generalize bars.filter (fun b => decide (bars[i].ts - w ≤ b.ts ∧ b.ts ≤ bars[i].ts)) = sel at *
    cases sel with
    | nil => simp at hmem
    | cons b t => rfl

example : volumeProfileRolling32 (fun x : ℚ => x.floor) [⟨0, 10, 10, [10], [1], [1]⟩, ⟨1, 11, 10, [10, 11], [1, 5], [1, 0]⟩,
    ⟨2, 11, 11, [11], [1], [1]⟩] 1 none 70
      = [.ok ⟨0, 0, 0, 0⟩, .ok ⟨11, 11, 10, 0⟩, .ok ⟨11, 11, 11, 0⟩] := by decide +kernel

/-! ### Accuracy -/

theorem npSum32_append (l : List ℚ) (x : ℚ) : npSum32 (l ++ [x]) = f32 (npSum32 l + x) := by
  unfold npSum32; rw [List.foldl_append]; rfl

theorem npSum32_f32 (l : List ℚ) : f32 (npSum32 l) = npSum32 l := by
  rcases List.eq_nil_or_concat l with rfl | ⟨l', x, rfl⟩
  · exact f32_zero
  · rw [List.concat_eq_append, npSum32_append, f32_idem]

theorem sum_near (l : List (ℚ × ℚ)) (a b : ℚ) (h : ∀ p ∈ l, p.1 * a ≤ p.2 ∧ p.2 ≤ p.1 * b) :
    (l.map Prod.fst).sum * a ≤ (l.map Prod.snd).sum ∧ (l.map Prod.snd).sum ≤ (l.map Prod.fst).sum * b := by
  induction l with
  | nil => simp
  | cons p t ih =>
    obtain ⟨h1, h2⟩ := h p List.mem_cons_self
    obtain ⟨i1, i2⟩ := ih (fun q hq => h q (List.mem_cons_of_mem _ hq))
    simp only [List.map_cons, List.sum_cons]
    constructor <;> nlinarith

theorem npSum32_near (l : List (ℚ × ℚ)) (m n : Nat) (hn : l.length ≤ n)
    (h : ∀ p ∈ l, 0 ≤ p.1 ∧ p.1 * (1 - 1 / 2 ^ 24) ^ m ≤ p.2 ∧ p.2 ≤ p.1 * (1 + 1 / 2 ^ 24) ^ m) :
    (l.map Prod.fst).sum * (1 - 1 / 2 ^ 24) ^ (m + n) ≤ npSum32 (l.map Prod.snd) ∧
    npSum32 (l.map Prod.snd) ≤ (l.map Prod.fst).sum * (1 + 1 / 2 ^ 24) ^ (m + n) := by
  have p0 : (0 : ℚ) ≤ (1 - 1 / 2 ^ 24) ^ m := pow_nonneg (by norm_num) _
  have hs0 : 0 ≤ (l.map Prod.fst).sum := List.sum_nonneg (fun x hx => by
    obtain ⟨p, hp, rfl⟩ := List.mem_map.mp hx; exact (h p hp).1)
  have hy : ∀ x ∈ l.map Prod.snd, 0 ≤ x := fun x hx => by
    obtain ⟨p, hp, rfl⟩ := List.mem_map.mp hx
    exact le_trans (mul_nonneg (h p hp).1 p0) (h p hp).2.1
  obtain ⟨a1, a2⟩ := npSum32_bounds _ hy
  obtain ⟨b1, b2⟩ := sum_near l _ _ (fun p hp => (h p hp).2)
  rw [List.length_map] at a1 a2
  have hq0 : (0 : ℚ) ≤ (1 - 1 / 2 ^ 24) ^ l.length := pow_nonneg (by norm_num) _
  have hq1 : (0 : ℚ) ≤ (1 + 1 / 2 ^ 24) ^ l.length := pow_nonneg (by norm_num) _
  constructor
  · calc (l.map Prod.fst).sum * (1 - 1 / 2 ^ 24) ^ (m + n) ≤ (l.map Prod.fst).sum * (1 - 1 / 2 ^ 24) ^ (m + l.length) :=
          mul_le_mul_of_nonneg_left (pow_le_pow_of_le_one (by norm_num) (by norm_num) (by omega)) hs0
      _ = (l.map Prod.fst).sum * (1 - 1 / 2 ^ 24) ^ m * (1 - 1 / 2 ^ 24) ^ l.length := by rw [pow_add]; ring
      _ ≤ (l.map Prod.snd).sum * (1 - 1 / 2 ^ 24) ^ l.length := mul_le_mul_of_nonneg_right b1 hq0
      _ ≤ _ := a1
  · calc npSum32 (l.map Prod.snd) ≤ (l.map Prod.snd).sum * (1 + 1 / 2 ^ 24) ^ l.length := a2
      _ ≤ (l.map Prod.fst).sum * (1 + 1 / 2 ^ 24) ^ m * (1 + 1 / 2 ^ 24) ^ l.length := mul_le_mul_of_nonneg_right b2 hq1
      _ = (l.map Prod.fst).sum * (1 + 1 / 2 ^ 24) ^ (m + l.length) := by rw [pow_add]; ring
      _ ≤ _ := mul_le_mul_of_nonneg_left (pow_le_pow_right₀ (by norm_num) (by omega)) hs0

theorem volumeAt_nonneg (levels : List Int) (v : List ℚ) (p : Int) (h : ∀ x ∈ v, 0 ≤ x) : 0 ≤ volumeAt levels v p := by
  unfold volumeAt
  refine List.sum_nonneg (fun x hx => ?_)
  obtain ⟨q, hq, rfl⟩ := List.mem_map.mp hx
  exact h _ (List.of_mem_zip (List.mem_of_mem_filter hq)).2

/-- Total volumes of the levels of a window, in exact arithmetic. -/
def windowTotals (rnd : ℚ → Int) (bars : List (FpBar ℚ)) : List ℚ :=
  List.zipWith (· + ·) (alignBars rnd bars).2.1 (alignBars rnd bars).2.2

/-- Total volumes of the levels of a window, as computed. -/
def windowTotals32 (rnd : ℚ → Int) (bars : List (FpBar ℚ)) : List ℚ :=
  List.zipWith (fun a b => f32 (a + b)) (alignBars32 rnd bars).2.1 (alignBars32 rnd bars).2.2

/-- A window of footprint bars as the package builds them: distinct levels between low and high, one non-negative volume per level and side. -/
def ProperWindow (rnd : ℚ → Int) (bars : List (FpBar ℚ)) : Prop :=
  bars ≠ [] ∧ ∀ b ∈ bars, b.low ≤ b.high ∧ WellFormedBar (rnd b.low) (rnd b.high) b ∧ (∀ x ∈ b.buy, 0 ≤ x) ∧ ∀ x ∈ b.sell, 0 ≤ x

/-- **C142.** Each level of a window of `N` bars: computed from the same bars as the exact total, up to `N + 1` float32 roundings. -/
theorem C142_level_accuracy (rnd : ℚ → Int) (hmono : Monotone rnd) (bars : List (FpBar ℚ)) (hw : ProperWindow rnd bars) :
    (alignBars32 rnd bars).1 = (alignBars rnd bars).1 ∧
    (windowTotals rnd bars).length = (alignBars rnd bars).1.length ∧ (windowTotals32 rnd bars).length = (alignBars rnd bars).1.length ∧
    AllF32 (windowTotals32 rnd bars) ∧
    (∃ lo hi : Int, lo ≤ hi ∧ (alignBars rnd bars).1 = arange lo (hi + 1) 1) ∧
    ∀ k, k < (alignBars rnd bars).1.length →
      0 ≤ (windowTotals rnd bars).getD k 0 ∧
      (windowTotals rnd bars).getD k 0 * (1 - 1 / 2 ^ 24) ^ (bars.length + 1) ≤ (windowTotals32 rnd bars).getD k 0 ∧
      (windowTotals32 rnd bars).getD k 0 ≤ (windowTotals rnd bars).getD k 0 * (1 + 1 / 2 ^ 24) ^ (bars.length + 1) := by
  obtain ⟨hne, hb⟩ := hw
  obtain ⟨lo, hi, ⟨b0, hb0, e0⟩, hlo, -, hhi, buy, sell, ea, l1, l2, h3⟩ := C39_align_exact rnd hmono bars hne (fun b h => (hb b h).2.1)
  obtain ⟨lo', hi', -, -, -, -, buy', sell', ea', l1', l2', h3'⟩ := C142_levels rnd hmono bars hne (fun b h => (hb b h).2.1)
  have eg : (alignBars32 rnd bars).1 = (alignBars rnd bars).1 := rfl
  have eg' : arange lo' (hi' + 1) 1 = arange lo (hi + 1) 1 := by rw [ea, ea'] at eg; exact eg
  unfold windowTotals windowTotals32
  rw [ea, ea']
  refine ⟨eg', by simp [l1, l2], by simp [l1', l2', eg'], ?_, ⟨lo, hi, ?_, rfl⟩, ?_⟩
  · intro x hx
    obtain ⟨k, hk, rfl⟩ := List.getElem_of_mem hx
    rw [List.getElem_zipWith, f32_idem]
  · have := hlo b0 hb0; have := hhi b0 hb0
    have := hmono (hb b0 hb0).1
    omega
  · intro k hk
    have hk' : k < (arange lo' (hi' + 1) 1).length := by rw [eg']; exact hk
    obtain ⟨g1, g2, g3⟩ := h3 k hk
    obtain ⟨g1', g2', g3'⟩ := h3' k hk'
    rw [eg', g1] at g1'
    have elo : lo' + (k : Int) = lo + k := (Option.some.inj g1').symm
    rw [elo] at g2' g3'
    have ex : (List.zipWith (· + ·) buy sell).getD k 0 =
        (bars.map (fun b => volumeAt b.levels b.buy (lo + k))).sum + (bars.map (fun b => volumeAt b.levels b.sell (lo + k))).sum := by
      rw [List.getD_eq_getElem?_getD, List.getElem?_zipWith, g2, g3]; rfl
    have ex' : (List.zipWith (fun a b => f32 (a + b)) buy' sell').getD k 0 =
        levelTotal32 (bars.map (fun b => volumeAt b.levels b.buy (lo + k))) (bars.map (fun b => volumeAt b.levels b.sell (lo + k))) := by
      rw [List.getD_eq_getElem?_getD, List.getElem?_zipWith, g2', g3']; rfl
    have n1 : ∀ x ∈ bars.map (fun b => volumeAt b.levels b.buy (lo + k)), 0 ≤ x := fun x hx => by
      obtain ⟨b, hbm, rfl⟩ := List.mem_map.mp hx; exact volumeAt_nonneg _ _ _ (hb b hbm).2.2.1
    have n2 : ∀ x ∈ bars.map (fun b => volumeAt b.levels b.sell (lo + k)), 0 ≤ x := fun x hx => by
      obtain ⟨b, hbm, rfl⟩ := List.mem_map.mp hx; exact volumeAt_nonneg _ _ _ (hb b hbm).2.2.2
    obtain ⟨t1, t2, -⟩ := C124_level_total _ _ n1 n2 bars.length (by simp) (by simp)
    rw [ex, ex']
    exact ⟨add_nonneg (List.sum_nonneg n1) (List.sum_nonneg n2), t1, t2⟩

theorem triple_filter (levels : List Int) (q : Int → Bool) : ∀ (x y : List ℚ), x.length = levels.length → y.length = levels.length →
    ((levels.zip x).filter (fun p => q p.1)).map Prod.snd = ((levels.zip (x.zip y)).filter (fun p => q p.1)).map (fun p => p.2.1) ∧
    ((levels.zip y).filter (fun p => q p.1)).map Prod.snd = ((levels.zip (x.zip y)).filter (fun p => q p.1)).map (fun p => p.2.2) := by
  induction levels with
  | nil => intro x y _ _; simp
  | cons l t ih =>
    intro x y hx hy
    cases x with
    | nil => simp at hx
    | cons a x =>
      cases y with
      | nil => simp at hy
      | cons b y =>
        obtain ⟨i1, i2⟩ := ih x y (by simpa using hx) (by simpa using hy)
        simp only [List.zip_cons_cons]
        by_cases hq : q l = true
        · rw [List.filter_cons_of_pos (by simpa using hq), List.filter_cons_of_pos (by simpa using hq), List.filter_cons_of_pos (by simpa using hq)]
          simp only [List.map_cons]
          exact ⟨by rw [i1], by rw [i2]⟩
        · rw [List.filter_cons_of_neg (by simpa using hq), List.filter_cons_of_neg (by simpa using hq), List.filter_cons_of_neg (by simpa using hq)]
          exact ⟨i1, i2⟩

theorem levels_in_bucket {β : Type} (levels : List Int) (hs : levels.Pairwise (· < ·)) (v : List β) (A B : Int) :
    ((levels.zip v).filter (fun p => decide (A ≤ p.1 ∧ p.1 < B))).length ≤ (B - A).toNat := by
  have hnd : levels.Nodup := hs.imp (fun h => ne_of_lt h)
  have hsub : (((levels.zip v).filter (fun p => decide (A ≤ p.1 ∧ p.1 < B))).map Prod.fst).Sublist levels := by
    refine (List.filter_sublist.map _).trans ?_
    clear hnd hs
    induction levels generalizing v with
    | nil => simp
    | cons a t ih =>
      cases v with
      | nil => simp
      | cons x v => exact (ih v).cons_cons a
  have hn := hnd.sublist hsub
  have hc : (((levels.zip v).filter (fun p => decide (A ≤ p.1 ∧ p.1 < B))).map Prod.fst).toFinset ⊆ Finset.Ico A B := by
    intro x hx
    rw [List.mem_toFinset] at hx
    obtain ⟨p, hp, rfl⟩ := List.mem_map.mp hx
    rw [Finset.mem_Ico]
    simpa using (List.mem_filter.mp hp).2
  have := Finset.card_le_card hc
  rw [List.toFinset_card_of_nodup hn, Int.card_Ico, List.length_map] at this
  exact this

/-- **C142.** The bucketed profile of a window of `N` bars: same buckets and representatives as in exact arithmetic, and every volume is that of exact
arithmetic up to `N + 1 + bw` float32 roundings, `bw` ticks being the width of a bucket. -/
theorem C142_bucket_accuracy (rnd : ℚ → Int) (hmono : Monotone rnd) (bars : List (FpBar ℚ)) (hw : ProperWindow rnd bars) (n : Int) (hn : 0 < n) :
    ∃ (bw : Int) (reps : List Int) (out out32 : List ℚ),
      bucketPriceLevels (alignBars rnd bars).1 (windowTotals rnd bars) n = .ok (reps, out) ∧
      bucketPriceLevels32 (alignBars32 rnd bars).1 (windowTotals32 rnd bars) n = .ok (reps, out32) ∧
      1 ≤ bw ∧ (bw ≤ ((alignBars rnd bars).1.getLastD 0 - (alignBars rnd bars).1.headD 0) / n + 1 ∨ bw = 1) ∧
      reps ≠ [] ∧ reps.Pairwise (· < ·) ∧ out.length = reps.length ∧ out32.length = reps.length ∧ AllF32 out32 ∧ out.sum = (windowTotals rnd bars).sum ∧
      ∀ k, 0 ≤ out.getD k 0 ∧
        out.getD k 0 * (1 - 1 / 2 ^ 24) ^ (bars.length + 1 + bw.toNat) ≤ out32.getD k 0 ∧
        out32.getD k 0 ≤ out.getD k 0 * (1 + 1 / 2 ^ 24) ^ (bars.length + 1 + bw.toNat) := by
  obtain ⟨eg, tl, tl32, -, ⟨lo, hi, hlh, ea⟩, hk⟩ := C142_level_accuracy rnd hmono bars hw
  rw [eg]
  have hne : (alignBars rnd bars).1 ≠ [] := by
    rw [ea]
    intro h
    have := (lt_arange_length (by norm_num : (0 : Int) < 1) 0).mpr (by omega : lo + ((0 : Nat) : Int) * 1 < hi + 1)
    rw [h] at this
    simp at this
  have hss : (alignBars rnd bars).1.Pairwise (· < ·) := by
    rw [ea, List.pairwise_iff_getElem]
    intro i j hi hj hij
    rw [arange_getElem, arange_getElem]; omega
  have hs : (alignBars rnd bars).1.Pairwise (· ≤ ·) := hss.imp le_of_lt
  obtain ⟨bw, reps, out, e1, ebw, b1, b2, b3, b4, r1, o1, o2, h1⟩ := bucket_closed_width (alignBars rnd bars).1 (windowTotals rnd bars) n hne hs hn tl
  obtain ⟨bw', reps', out32, e1', ebw', -, -, -, -, r1', o1', h1'⟩ := C142_bucket (alignBars rnd bars).1 (windowTotals32 rnd bars) n hne hs hn tl32
  have hbb : bw' = bw := by rw [ebw, ebw']
  subst hbb
  have hr : reps' = reps := by
    apply List.ext_getElem?
    intro k
    by_cases hkk : k < reps.length
    · rw [(h1 k hkk).1, (h1' k (by omega)).1]
    · rw [List.getElem?_eq_none (by omega), List.getElem?_eq_none (by omega)]
  subst hr
  have hasc := C39_representatives_ascending (alignBars rnd bars).1 (windowTotals rnd bars) n hne hs hn tl _ _ e1
  refine ⟨bw', reps', out, out32, e1, e1', b1, ?_, ?_, hasc, o1, o1', ?_, o2, ?_⟩
  · rw [List.getLastD_eq_getLast?, List.getLast?_eq_getLast_of_ne_nil hne, List.headD_eq_head?_getD, List.head?_eq_some_head hne]
    exact b4
  · intro h
    rw [h] at r1
    have : 0 ≤ ((alignBars rnd bars).1.getLast hne - (alignBars rnd bars).1.head hne) / bw' :=
      Int.ediv_nonneg (by have := head_le_of_sorted hne hs _ (List.getLast_mem hne); omega) (by omega)
    simp at r1; omega
  · intro x hx
    obtain ⟨k, hk', rfl⟩ := List.getElem_of_mem hx
    have := (h1' k (by omega)).2
    rw [List.getElem?_eq_getElem hk'] at this
    rw [Option.some.inj this, npSum32_f32]
  · intro k
    by_cases hkk : k < reps'.length
    · have g := (h1 k hkk).2
      have g' := (h1' k hkk).2
      obtain ⟨t1, t2⟩ := triple_filter (alignBars rnd bars).1 (fun x => decide
          ((alignBars rnd bars).1.head hne + k * bw' ≤ x ∧ x < (alignBars rnd bars).1.head hne + (k + 1) * bw')) _ _ tl tl32
      rw [List.getD_eq_getElem?_getD, List.getD_eq_getElem?_getD, g, g', Option.getD_some, Option.getD_some, t1, t2]
      have hlen := levels_in_bucket (alignBars rnd bars).1 hss ((windowTotals rnd bars).zip (windowTotals32 rnd bars))
        ((alignBars rnd bars).1.head hne + k * bw') ((alignBars rnd bars).1.head hne + (k + 1) * bw')
      have ew : (alignBars rnd bars).1.head hne + (k + 1) * bw' - ((alignBars rnd bars).1.head hne + k * bw') = bw' := by ring
      rw [ew] at hlen
      have hall : ∀ p ∈ (((alignBars rnd bars).1.zip ((windowTotals rnd bars).zip (windowTotals32 rnd bars))).filter (fun p => decide
          ((alignBars rnd bars).1.head hne + k * bw' ≤ p.1 ∧ p.1 < (alignBars rnd bars).1.head hne + (k + 1) * bw'))).map Prod.snd,
          0 ≤ p.1 ∧ p.1 * (1 - 1 / 2 ^ 24) ^ (bars.length + 1) ≤ p.2 ∧ p.2 ≤ p.1 * (1 + 1 / 2 ^ 24) ^ (bars.length + 1) := by
        intro p hp
        obtain ⟨q, hq, rfl⟩ := List.mem_map.mp hp
        have hz := (List.of_mem_zip (List.mem_of_mem_filter hq)).2
        obtain ⟨j, hj, ej⟩ := List.getElem_of_mem hz
        rw [List.length_zip, tl, tl32, min_self] at hj
        have := hk j hj
        rw [List.getD_eq_getElem _ _ (by omega), List.getD_eq_getElem _ _ (by omega)] at this
        rw [← ej, List.getElem_zip]
        exact this
      have key := npSum32_near _ (bars.length + 1) bw'.toNat (by rw [List.length_map]; exact hlen) hall
      rw [List.map_map, List.map_map] at key
      refine ⟨List.sum_nonneg ?_, key.1, key.2⟩
      intro x hx
      obtain ⟨q, hq, rfl⟩ := List.mem_map.mp hx
      exact (hall q.2 (List.mem_map_of_mem hq)).1
    · rw [List.getD_eq_default _ _ (by omega), List.getD_eq_default _ _ (by omega)]
      simp

example : ProperWindow (fun x : ℚ => x.floor) [⟨0, 12, 10, [10, 12], [16777216, 2], [3, 4]⟩, ⟨1, 12, 10, [10, 11, 12], [1, 5, 6], [1, 7, 8]⟩] := by
  unfold ProperWindow WellFormedBar; decide +kernel

/-- **C142.** What a row of the rolling profile says about the exact volumes of the buckets: the point of control is a bucket with the largest volume, and the
value area holds the requested share, both up to the roundings. -/
theorem C142_row (rnd : ℚ → Int) (hmono : Monotone rnd) (bars : List (FpBar ℚ)) (hw : ProperWindow rnd bars) (n : Int) (hn : 0 < n) (pct : ℚ)
    (hp0 : 0 ≤ pct) (hp : pct ≤ 100) :
    ∃ (bw : Int) (reps : List Int) (out : List ℚ) (row : VpOut ℚ),
      bucketPriceLevels (alignBars rnd bars).1 (windowTotals rnd bars) n = .ok (reps, out) ∧
      profileOf32 (alignBars32 rnd bars).1 (windowTotals32 rnd bars) (some n) pct = .ok row ∧
      1 ≤ bw ∧ (bw ≤ ((alignBars rnd bars).1.getLastD 0 - (alignBars rnd bars).1.headD 0) / n + 1 ∨ bw = 1) ∧
      (∃ p, reps[p]? = some row.poc ∧
        ∀ j, out.getD j 0 * (1 - 1 / 2 ^ 24) ^ (bars.length + 1 + bw.toNat) ≤ out.getD p 0 * (1 + 1 / 2 ^ 24) ^ (bars.length + 1 + bw.toNat)) ∧
      row.hva ∈ reps ∧ row.lva ∈ reps ∧ row.lva ≤ row.poc ∧ row.poc ≤ row.hva ∧
      (reps.length ≤ 2 ^ 23 →
        (windowTotals rnd bars).sum * (1 - 1 / 2 ^ 24) ^ (bars.length + 1 + bw.toNat) * (pct / 100) * (1 - (reps.length + 2) / 2 ^ 24)
          ≤ (((reps.zip out).filter (fun x => decide (row.lva ≤ x.1 ∧ x.1 ≤ row.hva))).map Prod.snd).sum *
            (1 + 1 / 2 ^ 24) ^ (bars.length + 1 + bw.toNat)) := by
  obtain ⟨bw, reps, out, out32, e, e32, b1, b2, hne, hasc, o1, o2, ho32, hsum, hk⟩ := C142_bucket_accuracy rnd hmono bars hw n hn
  have hne32 : out32 ≠ [] := by
    intro h; rw [h] at o2; exact hne (List.length_eq_zero_iff.mp o2.symm)
  have p0 : (0 : ℚ) ≤ (1 - 1 / 2 ^ 24) ^ (bars.length + 1 + bw.toNat) := pow_nonneg (by norm_num) _
  have hpos : ∀ x ∈ out32, 0 ≤ x := by
    intro x hx
    obtain ⟨k, hk', rfl⟩ := List.getElem_of_mem hx
    have := hk k
    rw [List.getD_eq_getElem out32 _ hk'] at this
    exact le_trans (mul_nonneg this.1 p0) this.2.1
  have hrow : profileOf32 (alignBars32 rnd bars).1 (windowTotals32 rnd bars) (some n) pct =
      .ok ⟨(compPocHvaLva32 reps out32 pct).1, (compPocHvaLva32 reps out32 pct).2.1, (compPocHvaLva32 reps out32 pct).2.2,
        pctAbovePoc32 reps out32 (compPocHvaLva32 reps out32 pct).1⟩ := by
    unfold profileOf32
    simp only [e32]
  refine ⟨bw, reps, out, _, e, hrow, b1, b2, ?_, ?_⟩
  · obtain ⟨p, hp1, hp2, hp3, -⟩ := C124_poc reps out32 pct hne32 o2.symm
    refine ⟨p, hp2, fun j => ?_⟩
    by_cases hj : j < out32.length
    · exact le_trans (hk j).2.1 (le_trans (hp3 j hj) (hk p).2.2)
    · rw [List.getD_eq_default out _ (by omega), zero_mul]
      exact mul_nonneg (hk p).1 (pow_nonneg (by norm_num) _)
  · obtain ⟨p, m, lo, hi, -, -, c1, c2, c3, l1, l2, l3, -⟩ := C124_value_area reps out32 pct hne32 o2.symm ho32 hpos hp0 hp
    have hmono' : ∀ (i j : Nat) (x y : Int), i ≤ j → reps[i]? = some x → reps[j]? = some y → x ≤ y := by
      intro i j x y hij hx hy
      obtain ⟨hi', rfl⟩ := List.getElem?_eq_some_iff.mp hx
      obtain ⟨hj', rfl⟩ := List.getElem?_eq_some_iff.mp hy
      rcases Nat.lt_or_ge i j with h | h
      · exact le_of_lt (List.pairwise_iff_getElem.mp hasc i j hi' hj' h)
      · have : i = j := by omega
        subst this; exact le_rfl
    refine ⟨List.mem_of_getElem? l2, List.mem_of_getElem? l3, hmono' lo p _ _ c1 l3 l1, hmono' p hi _ _ c2 l1 l2, ?_⟩
    intro hlen
    obtain ⟨-, -, -, -, -, hcov⟩ := C124_covers reps out32 pct hne32 o2.symm hasc ho32 hpos hp0 hp (by omega)
    rw [o2] at hcov
    -- from computed to exact volumes
    have hz : ∀ q ∈ out.zip out32, q.1 * (1 - 1 / 2 ^ 24) ^ (bars.length + 1 + bw.toNat) ≤ q.2 ∧ q.2 ≤ q.1 * (1 + 1 / 2 ^ 24) ^ (bars.length + 1 + bw.toNat) := by
      intro q hq
      obtain ⟨j, hj, rfl⟩ := List.getElem_of_mem hq
      rw [List.length_zip] at hj
      have := (hk j).2
      rw [List.getD_eq_getElem _ _ (by omega), List.getD_eq_getElem _ _ (by omega)] at this
      rw [List.getElem_zip]
      exact this
    have s1 := (sum_near _ _ _ hz).1
    rw [List.map_fst_zip (by omega), List.map_snd_zip (by omega), hsum] at s1
    obtain ⟨t1, t2⟩ := triple_filter reps (fun x => decide ((compPocHvaLva32 reps out32 pct).2.2 ≤ x ∧ x ≤ (compPocHvaLva32 reps out32 pct).2.1)) out out32 o1 o2
    have s2 := (sum_near (((reps.zip (out.zip out32)).filter (fun p => decide ((compPocHvaLva32 reps out32 pct).2.2 ≤ p.1 ∧ p.1 ≤ (compPocHvaLva32 reps out32 pct).2.1))).map Prod.snd)
      _ _ (fun q hq => by
        obtain ⟨r, hr, rfl⟩ := List.mem_map.mp hq
        exact hz _ (List.of_mem_zip (List.mem_of_mem_filter hr)).2)).2
    rw [List.map_map, List.map_map] at s2
    simp only at hcov t1 t2 ⊢
    rw [t2] at hcov
    rw [t1]
    refine le_trans ?_ (le_trans hcov s2)
    have hq : (0 : ℚ) ≤ 1 - ((reps.length : ℚ) + 2) / 2 ^ 24 := by
      have : (reps.length : ℚ) ≤ 2 ^ 23 := by exact_mod_cast hlen
      rw [sub_nonneg, div_le_one (by norm_num)]
      linarith
    exact mul_le_mul_of_nonneg_right (mul_le_mul_of_nonneg_right s1 (by positivity)) hq

example : Monotone (fun x : ℚ => x.floor) ∧
    ProperWindow (fun x : ℚ => x.floor) [⟨0, 12, 10, [10, 12], [16777216, 2], [3, 4]⟩, ⟨1, 12, 10, [10, 11, 12], [1, 5, 6], [1, 7, 8]⟩] := by
  refine ⟨fun a b h => Rat.floor_monotone h, ?_⟩
  unfold ProperWindow WellFormedBar; decide +kernel

/-- Volumes are whole multiples of `2^k`. -/
def Lots (k : Int) (l : List ℚ) : Prop := ∀ x ∈ l, ∃ m : Nat, x = ((m : Int) : ℚ) * 2 ^ k

theorem Lots.list {k : Int} {l : List ℚ} (h : Lots k l) : ∃ ms : List Nat, l = ms.map (fun m : Nat => ((m : Int) : ℚ) * 2 ^ k) := by
  induction l with
  | nil => exact ⟨[], rfl⟩
  | cons x t ih =>
    obtain ⟨m, hm⟩ := h x List.mem_cons_self
    obtain ⟨ms, hms⟩ := ih (fun y hy => h y (List.mem_cons_of_mem _ hy))
    exact ⟨m :: ms, by rw [List.map_cons, ← hm, ← hms]⟩

theorem Lots.sum {k : Int} {l : List ℚ} (h : Lots k l) : ∃ m : Nat, l.sum = ((m : Int) : ℚ) * 2 ^ k := by
  obtain ⟨ms, rfl⟩ := h.list
  exact ⟨ms.sum, grid_sum k ms⟩

theorem Lots.nonneg {k : Int} {l : List ℚ} (h : Lots k l) : ∀ x ∈ l, 0 ≤ x := by
  intro x hx
  obtain ⟨m, rfl⟩ := h x hx
  exact mul_nonneg (by exact_mod_cast Nat.zero_le m) (two_zpow_pos k).le

theorem Lots.npSum32 {k : Int} {l : List ℚ} (h : Lots k l) (hs : l.sum ≤ 2 ^ 24 * 2 ^ k) : npSum32 l = l.sum := by
  obtain ⟨ms, rfl⟩ := h.list
  rw [grid_sum] at hs
  refine grid_npSum32 k ms ?_
  have := le_of_mul_le_mul_right hs (two_zpow_pos k)
  exact_mod_cast this

theorem Lots.f32 {k : Int} {l : List ℚ} (h : Lots k l) (hs : l.sum ≤ 2 ^ 24 * 2 ^ k) : f32 l.sum = l.sum := by
  rw [← h.npSum32 hs, npSum32_f32]

theorem Lots.volumeAt {k : Int} (levels : List Int) {v : List ℚ} (h : Lots k v) (p : Int) : ∃ m : Nat, volumeAt levels v p = ((m : Int) : ℚ) * 2 ^ k :=
  Lots.sum (fun x hx => by
    obtain ⟨q, hq, rfl⟩ := List.mem_map.mp hx
    exact h _ (List.of_mem_zip (List.mem_of_mem_filter hq)).2)

theorem mem_le_sum_of_nonneg (l : List ℚ) (h : ∀ x ∈ l, 0 ≤ x) (x : ℚ) (hx : x ∈ l) : x ≤ l.sum := by
  induction l with
  | nil => simp at hx
  | cons y t ih =>
    rw [List.sum_cons]
    have h0 := List.sum_nonneg (fun z hz => h z (List.mem_cons_of_mem _ hz))
    rcases List.mem_cons.mp hx with rfl | hx
    · linarith
    · have := ih (fun z hz => h z (List.mem_cons_of_mem _ hz)) hx
      have := h y List.mem_cons_self
      linarith

/-- **C142.** Volumes in whole lots (multiples of a power of two) with a total of at most `2^24` lots in the window: levels and buckets are exact, and the point of control is
that of exact arithmetic. -/
theorem C142_exact (rnd : ℚ → Int) (hmono : Monotone rnd) (bars : List (FpBar ℚ)) (hw : ProperWindow rnd bars) (n : Int) (hn : 0 < n) (pct : ℚ) (k : Int)
    (hl : ∀ b ∈ bars, Lots k b.buy ∧ Lots k b.sell) (hT : (windowTotals rnd bars).sum ≤ 2 ^ 24 * 2 ^ k) :
    windowTotals32 rnd bars = windowTotals rnd bars ∧
    bucketPriceLevels32 (alignBars32 rnd bars).1 (windowTotals32 rnd bars) n = bucketPriceLevels (alignBars rnd bars).1 (windowTotals rnd bars) n ∧
    ∃ row row32, profileOf (alignBars rnd bars).1 (windowTotals rnd bars) (some n) pct = .ok row ∧
      profileOf32 (alignBars32 rnd bars).1 (windowTotals32 rnd bars) (some n) pct = .ok row32 ∧ row32.poc = row.poc := by
  obtain ⟨eg, tl, tl32, -, -, hnn⟩ := C142_level_accuracy rnd hmono bars hw
  have htn : ∀ x ∈ windowTotals rnd bars, 0 ≤ x := by
    intro x hx
    obtain ⟨j, hj, rfl⟩ := List.getElem_of_mem hx
    have := (hnn j (by omega)).1
    rwa [List.getD_eq_getElem _ _ hj] at this
  have hlots : Lots k (windowTotals rnd bars) ∧ windowTotals32 rnd bars = windowTotals rnd bars := by
    obtain ⟨hne, hb⟩ := hw
    obtain ⟨lo, hi, -, -, -, -, buy, sell, ea, l1, l2, h3⟩ := C39_align_exact rnd hmono bars hne (fun b h => (hb b h).2.1)
    obtain ⟨lo', hi', -, -, -, -, buy', sell', ea', l1', l2', h3'⟩ := C142_levels rnd hmono bars hne (fun b h => (hb b h).2.1)
    have eg' : arange lo' (hi' + 1) 1 = arange lo (hi + 1) 1 := by rw [ea, ea'] at eg; exact eg
    have key : ∀ j, j < (arange lo (hi + 1) 1).length → ∃ x : ℚ, (∃ m : Nat, x = ((m : Int) : ℚ) * 2 ^ k) ∧
        (windowTotals rnd bars)[j]? = some x ∧ (windowTotals32 rnd bars)[j]? = some x := by
      intro j hj
      obtain ⟨g1, g2, g3⟩ := h3 j hj
      obtain ⟨g1', g2', g3'⟩ := h3' j (by rw [eg']; exact hj)
      rw [eg', g1] at g1'
      have elo : lo' + (j : Int) = lo + j := (Option.some.inj g1').symm
      rw [elo] at g2' g3'
      have e : (windowTotals rnd bars)[j]? = some ((bars.map (fun b => volumeAt b.levels b.buy (lo + j))).sum + (bars.map (fun b => volumeAt b.levels b.sell (lo + j))).sum) := by
        unfold windowTotals; rw [ea, List.getElem?_zipWith, g2, g3]
      have e' : (windowTotals32 rnd bars)[j]? = some (f32 (npSum32 (bars.map (fun b => volumeAt b.levels b.buy (lo + j))) + npSum32 (bars.map (fun b => volumeAt b.levels b.sell (lo + j))))) := by
        unfold windowTotals32; rw [ea', List.getElem?_zipWith, g2', g3']
      have L1 : Lots k (bars.map (fun b => volumeAt b.levels b.buy (lo + j))) := fun x hx => by
        obtain ⟨b, hbm, rfl⟩ := List.mem_map.mp hx; exact (hl b hbm).1.volumeAt b.levels _
      have L2 : Lots k (bars.map (fun b => volumeAt b.levels b.sell (lo + j))) := fun x hx => by
        obtain ⟨b, hbm, rfl⟩ := List.mem_map.mp hx; exact (hl b hbm).2.volumeAt b.levels _
      have hle := mem_le_sum_of_nonneg _ htn _ (List.mem_of_getElem? e)
      have n1 := List.sum_nonneg L1.nonneg
      have n2 := List.sum_nonneg L2.nonneg
      have La : Lots k (bars.map (fun b => volumeAt b.levels b.buy (lo + j)) ++ bars.map (fun b => volumeAt b.levels b.sell (lo + j))) := by
        intro x hx
        rcases List.mem_append.mp hx with h | h
        · exact L1 x h
        · exact L2 x h
      refine ⟨_, ?_, e, ?_⟩
      · rw [← List.sum_append]; exact La.sum
      · rw [e', L1.npSum32 (by linarith), L2.npSum32 (by linarith), ← List.sum_append, La.f32 (by rw [List.sum_append]; linarith)]
    constructor
    · intro x hx
      obtain ⟨j, hj, rfl⟩ := List.getElem_of_mem hx
      obtain ⟨y, hy, e, -⟩ := key j (by rw [tl, ea] at hj; exact hj)
      rw [List.getElem?_eq_getElem hj] at e
      rw [Option.some.inj e]; exact hy
    · apply List.ext_getElem?
      intro j
      by_cases hj : j < (arange lo (hi + 1) 1).length
      · obtain ⟨y, -, e, e'⟩ := key j hj
        rw [e, e']
      · rw [List.getElem?_eq_none (by rw [tl32, ea]; simpa using hj), List.getElem?_eq_none (by rw [tl, ea]; simpa using hj)]
  obtain ⟨hL, hE⟩ := hlots
  have hbk : bucketPriceLevels32 (alignBars32 rnd bars).1 (windowTotals32 rnd bars) n = bucketPriceLevels (alignBars rnd bars).1 (windowTotals rnd bars) n := by
    obtain ⟨-, -, -, -, ⟨lo, hi, hlh, ea⟩, -⟩ := C142_level_accuracy rnd hmono bars hw
    rw [eg, hE]
    have hne : (alignBars rnd bars).1 ≠ [] := by
      rw [ea]
      intro h
      have := (lt_arange_length (by norm_num : (0 : Int) < 1) 0).mpr (by omega : lo + ((0 : Nat) : Int) * 1 < hi + 1)
      rw [h] at this
      simp at this
    have hs : (alignBars rnd bars).1.Pairwise (· ≤ ·) := by
      rw [ea, List.pairwise_iff_getElem]
      intro i j hi hj hij
      rw [arange_getElem, arange_getElem]; omega
    obtain ⟨bw, reps, out, e1, ebw, b1, b2, b3, b4, r1, o1, o2, h1⟩ := bucket_closed_width (alignBars rnd bars).1 (windowTotals rnd bars) n hne hs hn tl
    obtain ⟨bw', reps', out32, e1', ebw', -, -, -, -, r1', o1', h1'⟩ := C142_bucket (alignBars rnd bars).1 (windowTotals rnd bars) n hne hs hn tl
    have hbb : bw' = bw := by rw [ebw, ebw']
    subst hbb
    rw [e1, e1']
    congr 2
    · apply List.ext_getElem?
      intro j
      by_cases hkk : j < reps.length
      · rw [(h1 j hkk).1, (h1' j (by omega)).1]
      · rw [List.getElem?_eq_none (by omega), List.getElem?_eq_none (by omega)]
    · apply List.ext_getElem?
      intro j
      by_cases hkk : j < reps.length
      · rw [(h1 j hkk).2, (h1' j (by omega)).2]
        congr 1
        have hsub : (((alignBars rnd bars).1.zip (windowTotals rnd bars)).filter (fun p => decide
            ((alignBars rnd bars).1.head hne + j * bw' ≤ p.1 ∧ p.1 < (alignBars rnd bars).1.head hne + (j + 1) * bw'))).map Prod.snd |>.Sublist (windowTotals rnd bars) := by
          refine (List.filter_sublist.map _).trans ?_
          rw [List.map_snd_zip (by omega)]
        refine Lots.npSum32 (fun x hx => hL x (hsub.subset hx)) ?_
        exact le_trans (List.Sublist.sum_le_sum hsub htn) hT
      · rw [List.getElem?_eq_none (by omega), List.getElem?_eq_none (by omega)]
  refine ⟨hE, hbk, ?_⟩
  obtain ⟨bw, reps, out, out32, e, e32, -⟩ := C142_bucket_accuracy rnd hmono bars hw n hn
  have e' := hbk.trans e
  refine ⟨⟨(compPocHvaLva reps out pct).1, (compPocHvaLva reps out pct).2.1, (compPocHvaLva reps out pct).2.2, pctAbovePoc reps out (compPocHvaLva reps out pct).1⟩,
    ⟨(compPocHvaLva32 reps out pct).1, (compPocHvaLva32 reps out pct).2.1, (compPocHvaLva32 reps out pct).2.2, pctAbovePoc32 reps out (compPocHvaLva32 reps out pct).1⟩,
    ?_, ?_, rfl⟩
  · unfold profileOf; simp only [e]
  · unfold profileOf32; simp only [e']

example : Lots (-1) [3 / 2, 4] ∧ ([3 / 2, 4] : List ℚ).sum ≤ 2 ^ 24 * 2 ^ (-1 : Int) := by
  refine ⟨fun x hx => ?_, by norm_num⟩
  rcases List.mem_cons.mp hx with rfl | hx
  · exact ⟨3, by norm_num⟩
  · rw [List.mem_singleton.mp hx]; exact ⟨8, by norm_num⟩

/-- **C142, violation.** Bars of one unit each no longer count at a level that holds `2^24` units: the level with the largest volume is not the point of control. -/
theorem C142_poc_missed :
    let bars : List (FpBar ℚ) := [⟨0, 11, 10, [10, 11], [16777216, 16777218], [0, 0]⟩, ⟨1, 10, 10, [10], [1], [0]⟩, ⟨2, 10, 10, [10], [1], [0]⟩, ⟨3, 10, 10, [10], [1], [0]⟩]
    windowTotals (fun x : ℚ => x.floor) bars = [16777219, 16777218] ∧ windowTotals32 (fun x : ℚ => x.floor) bars = [16777216, 16777218] ∧
    ((volumeProfileRolling (fun x : ℚ => x.floor) bars 3 none 70)[3]?.bind (fun r => r.toOption.map VpOut.poc)) = some 10 ∧
    ((volumeProfileRolling32 (fun x : ℚ => x.floor) bars 3 none 70)[3]?.bind (fun r => r.toOption.map VpOut.poc)) = some 11 := by
  decide +kernel

/-- **C142.** The developing profile: after the first `t + 1` bars of the range the total of a level is the float32 sum of their buys plus the float32 sum of their sells,
within `t + 2` roundings of the exact total of these bars. -/
theorem C142_developing (rnd : ℚ → Int) (hmono : Monotone rnd) (sel : List (FpBar ℚ)) (hw : ProperWindow rnd sel) (t : Nat) (ht : t < sel.length) :
    ∃ lo : Int, tickGrid rnd sel = (List.range (tickGrid rnd sel).length).map (fun k : Nat => lo + (k : Int)) ∧
      (developingTotal32 rnd sel t).length = (tickGrid rnd sel).length ∧
      ∀ k, k < (tickGrid rnd sel).length →
        let B := (sel.take (t + 1)).map (fun b => volumeAt b.levels b.buy (lo + k))
        let S := (sel.take (t + 1)).map (fun b => volumeAt b.levels b.sell (lo + k))
        (developingTotal32 rnd sel t)[k]? = some (levelTotal32 B S) ∧
        (B.sum + S.sum) * (1 - 1 / 2 ^ 24) ^ (t + 2) ≤ levelTotal32 B S ∧ levelTotal32 B S ≤ (B.sum + S.sum) * (1 + 1 / 2 ^ 24) ^ (t + 2) := by
  obtain ⟨hne, hb⟩ := hw
  have hl := npMin_spec (sel.map FpBar.low) (by simpa using hne)
  have hh := npMax_spec (sel.map FpBar.high) (by simpa using hne)
  have hwf : ∀ b ∈ sel.take (t + 1), WellFormedBar (rnd (npMin (sel.map FpBar.low))) (rnd (npMax (sel.map FpBar.high))) b := by
    intro b hbt
    have hbm := List.mem_of_mem_take hbt
    obtain ⟨w1, w2, w3, w4⟩ := (hb b hbm).2.1
    exact ⟨w1, w2, w3, fun p hp => ⟨le_trans (hmono (hl.2 _ (List.mem_map_of_mem hbm))) (w4 p hp).1,
      le_trans (w4 p hp).2 (hmono (hh.2 _ (List.mem_map_of_mem hbm)))⟩⟩
  have hg : tickGrid rnd sel = arange (rnd (npMin (sel.map FpBar.low))) (rnd (npMax (sel.map FpBar.high)) + 1) 1 := rfl
  generalize rnd (npMin (sel.map FpBar.low)) = lo at *
  generalize rnd (npMax (sel.map FpBar.high)) = hi at *
  have hz : AllF32 (List.replicate (arange lo (hi + 1) 1).length (0 : ℚ)) := fun x hx => by rw [(List.mem_replicate.mp hx).2, f32_zero]
  obtain ⟨i1, i2, -, -, i3⟩ := alignFold32_spec lo hi (sel.take (t + 1)) (List.replicate (arange lo (hi + 1) 1).length 0,
    List.replicate (arange lo (hi + 1) 1).length 0) (by simp) (by simp) hz hz hwf
  unfold developingTotal32
  simp only []
  rw [hg]
  refine ⟨lo, ?_, by rw [List.length_zipWith, i1, i2, min_self], ?_⟩
  · apply List.ext_getElem (by simp)
    intro k h1 h2
    rw [arange_getElem, List.getElem_map, List.getElem_range, mul_one]
  · intro k hk
    obtain ⟨j1, j2⟩ := i3 k hk
    rw [List.getD_eq_getElem _ _ (by simpa using hk), List.getElem_replicate] at j1 j2
    have n1 : ∀ x ∈ (sel.take (t + 1)).map (fun b => volumeAt b.levels b.buy (lo + k)), 0 ≤ x := fun x hx => by
      obtain ⟨b, hbm, rfl⟩ := List.mem_map.mp hx; exact volumeAt_nonneg _ _ _ (hb b (List.mem_of_mem_take hbm)).2.2.1
    have n2 : ∀ x ∈ (sel.take (t + 1)).map (fun b => volumeAt b.levels b.sell (lo + k)), 0 ≤ x := fun x hx => by
      obtain ⟨b, hbm, rfl⟩ := List.mem_map.mp hx; exact volumeAt_nonneg _ _ _ (hb b (List.mem_of_mem_take hbm)).2.2.2
    obtain ⟨t1, t2, -⟩ := C124_level_total _ _ n1 n2 (t + 1) (by simp) (by simp)
    refine ⟨?_, t1, t2⟩
    rw [List.getElem?_zipWith, j1, j2]
    rfl

example : developingTotal32 (fun x : ℚ => x.floor) [⟨0, 11, 10, [10, 11], [16777216, 2], [0, 0]⟩, ⟨1, 10, 10, [10], [1], [3]⟩] 1 = [16777220, 2] := by decide +kernel

end FinML

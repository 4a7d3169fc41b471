/-
C158: array accesses of the compiled helpers of the volume profile.
-/
import Mathlib.Data.List.DropRight
import Verif.Props.CheckedBreak
import Verif.Props.CheckedTrend
import Verif.Props.Buckets
import Verif.Props.ValueArea
import Verif.Props.BarKit

set_option linter.unusedSectionVars false

namespace FinML

variable {K : Type} [Field K] [LinearOrder K] [IsStrictOrderedRing K]

/-! ## Value area -/

theorem pairUpChk_eq (vols : List K) (e : K) (up : Nat) : pairUpChk vols.length vols e up = some (pairUp vols e up) := by
  unfold pairUpChk pairUp
  by_cases h : up < vols.length
  · rw [if_pos h, if_pos h, rd_getD vols 0 up h]
    simp only [Option.bind_eq_bind, Option.bind_some]
    by_cases h1 : up + 1 < vols.length
    · rw [if_pos h1, if_pos h1, show ((up : Int) + 1) = ((up + 1 : Nat) : Int) by omega, rd_getD vols 0 (up + 1) h1]
      rfl
    · rw [if_neg h1, if_neg h1]
  · rw [if_neg h, if_neg h]

theorem pairDownChk_eq (vols : List K) (e : K) (down : Int) (hd : down < vols.length) : pairDownChk vols e down = some (pairDown vols e down) := by
  unfold pairDownChk pairDown
  by_cases h : 0 ≤ down
  · rw [if_pos h, if_pos h]
    have h0 : rd vols down = some (vols.getD down.toNat 0) := by
      conv_lhs => rw [show down = ((down.toNat : Nat) : Int) by omega]
      exact rd_getD vols 0 down.toNat (by omega)
    rw [h0]
    simp only [Option.bind_eq_bind, Option.bind_some]
    by_cases h1 : 0 ≤ down - 1
    · have h2 : rd vols (down - 1) = some (vols.getD (down - 1).toNat 0) := by
        conv_lhs => rw [show down - 1 = (((down - 1).toNat : Nat) : Int) by omega]
        exact rd_getD vols 0 (down - 1).toNat (by omega)
      rw [if_pos h1, if_pos h1, h2]
      rfl
    · rw [if_neg h1, if_neg h1]
  · rw [if_neg h, if_neg h]

theorem vaStepChk_eq (levels : List Int) (vols : List K) (hlen : levels.length = vols.length) (hne : vols ≠ []) (s : VaState K) (hd : s.down < vols.length) :
    vaStepChk levels vols s = some (vaStep levels vols s) := by
  have hn : 0 < vols.length := List.length_pos_iff.mpr hne
  have hh : rd levels (min ((s.up : Int) + 1) ((levels.length : Int) - 1)) = some (levels.getD (min (s.up + 1) (levels.length - 1)) 0) := by
    rw [show (min ((s.up : Int) + 1) ((levels.length : Int) - 1)) = ((min (s.up + 1) (levels.length - 1) : Nat) : Int) by omega]
    exact rd_getD levels 0 _ (by omega)
  have hl : rd levels (max (s.down - 1) 0) = some (levels.getD (max (s.down - 1) 0).toNat 0) := by
    conv_lhs => rw [show max (s.down - 1) 0 = (((max (s.down - 1) 0).toNat : Nat) : Int) by omega]
    exact rd_getD levels 0 _ (by omega)
  have hu : pairUpChk levels.length vols (-1) (s.up + 2) = some (pairUp vols (-1) (s.up + 2)) := by rw [hlen]; exact pairUpChk_eq vols _ _
  have hdn := pairDownChk_eq vols (-1) (s.down - 2) (by omega)
  unfold vaStepChk vaStep
  rw [hh, hl, hu, hdn]
  by_cases h1 : s.cu > s.cd
  · rw [if_pos h1, if_pos h1]; rfl
  · rw [if_neg h1, if_neg h1]
    by_cases h2 : s.cu < s.cd
    · rw [if_pos h2, if_pos h2]; rfl
    · rw [if_neg h2, if_neg h2]
      by_cases h3 : s.cd ≠ -1
      · rw [if_pos h3, if_pos h3]; rfl
      · rw [if_neg h3, if_neg h3]

theorem vaStep_down (levels : List Int) (vols : List K) (s s' : VaState K) (h : vaStep levels vols s = some s') : s'.down ≤ s.down := by
  unfold vaStep at h
  split at h
  · rw [← Option.some.inj h]; exact le_rfl
  · split at h
    · rw [← Option.some.inj h]; simp [vaDown]
    · split at h
      · rw [← Option.some.inj h]; simp [vaBoth]
      · exact absurd h (by simp)

theorem vaLoopChk_eq (levels : List Int) (vols : List K) (thr : K) (hlen : levels.length = vols.length) (hne : vols ≠ []) (f : Nat) (s : VaState K)
    (hd : s.down < vols.length) : vaLoopChk levels vols thr f s = some (vaLoop levels vols thr f s) := by
  induction f generalizing s with
  | zero => rfl
  | succ f ih =>
    unfold vaLoopChk vaLoop
    by_cases h : s.cum < thr
    · rw [if_pos h, if_pos h, vaStepChk_eq levels vols hlen hne s hd]
      cases hs : vaStep levels vols s with
      | none => rfl
      | some s' => exact ih s' (lt_of_le_of_lt (vaStep_down levels vols s s' hs) hd)
    · rw [if_neg h, if_neg h]

/-- **C158**: on a non-empty profile with one volume per level, point of control and value area are computed without leaving an array, and equal the model. -/
theorem C158_value_area (levels : List Int) (vols : List K) (pct : K) (hlen : levels.length = vols.length) (hne : vols ≠ []) :
    compPocHvaLvaChk levels vols pct = some (compPocHvaLva levels vols pct) := by
  have hp : argMax vols < vols.length := (argMax_spec vols hne).1
  have h1 : rd levels (argMax vols : Int) = some (levels.getD (argMax vols) 0) := rd_getD levels 0 _ (by omega)
  have h2 : rd vols (argMax vols : Int) = some (vols.getD (argMax vols) 0) := rd_getD vols 0 _ hp
  have h3 : pairUpChk levels.length vols 0 (argMax vols + 1) = some (pairUp vols 0 (argMax vols + 1)) := by rw [hlen]; exact pairUpChk_eq vols _ _
  have h4 := pairDownChk_eq vols 0 ((argMax vols : Int) - 1) (by omega)
  have hi : vaInitChk levels vols = some (vaInit levels vols) := by
    simp only [vaInitChk, h1, h2, h3, h4, Option.bind_eq_bind, Option.bind_some]
    rfl
  have hl := vaLoopChk_eq levels vols (vols.sum * (pct / 100)) hlen hne (vols.length + 2) (vaInit levels vols) (by simp [vaInit]; omega)
  simp only [compPocHvaLvaChk, hi, hl, h1, Option.bind_eq_bind, Option.bind_some]
  rfl

example : compPocHvaLvaChk [10, 11, 12, 13, 14] [1, 2, 5, 2, (1 : ℚ)] 80 = some (12, 14, 10) := by decide +kernel

/-- **C158**: an empty profile is read outside its bounds. -/
theorem C158_value_area_empty (vols : List K) (pct : K) : compPocHvaLvaChk [] vols pct = none := by
  unfold compPocHvaLvaChk vaInitChk
  have h : rd ([] : List Int) (argMax vols : Int) = none := rd_short _ _ (by simp)
  rw [h]; rfl

/-! ## Share above the point of control -/

/-- A loop over the positions of a list of pairs is a fold over the pairs. -/
theorem foldlM_range_pairs {ρ σ : Type} (f : σ → Nat → Option σ) (g : σ → ρ → σ) (P : σ → Prop) (z : List ρ) (s : σ) (hs : P s)
    (h : ∀ s i, (hi : i < z.length) → P s → f s i = some (g s z[i]) ∧ P (g s z[i])) :
    (List.range z.length).foldlM f s = some (z.foldl g s) := by
  rw [List.range_eq_range']
  have gen : ∀ k a s, P s → a + k = z.length → (List.range' a k).foldlM f s = some ((z.drop a).foldl g s) := by
    intro k
    induction k with
    | zero => intro a s _ ha; rw [List.drop_of_length_le (by omega)]; rfl
    | succ k ih =>
      intro a s hs ha
      obtain ⟨h1, h2⟩ := h s a (by omega) hs
      rw [List.range'_succ, List.foldlM_cons, h1, List.drop_eq_getElem_cons (by omega), List.foldl_cons]
      exact ih (a + 1) _ h2 (by omega)
  have := gen z.length 0 s hs (by omega)
  simpa using this

/-- **C158**: the share above the point of control. -/
theorem C158_share (levels : List Int) (vols : List K) (poc : Int) (hlen : levels.length = vols.length) :
    pctAbovePocChk levels vols poc = some (pctAbovePoc levels vols poc) := by
  unfold pctAbovePocChk pctAbovePoc
  by_cases h : vols.sum ≤ 0
  · rw [if_pos h]; simp [h]
  · rw [if_neg h]
    have hz : (levels.zip vols).length = levels.length := by simp [hlen]
    have hf := foldlM_range_pairs (aboveStepChk levels vols poc) (fun acc p => if p.1 > poc then acc + p.2 else acc) (fun _ => True) (levels.zip vols) 0 trivial (by
      intro s i hi _
      refine ⟨?_, trivial⟩
      have hi1 : i < levels.length := by omega
      have hi2 : i < vols.length := by omega
      simp only [aboveStepChk, rd_nat, List.getElem?_eq_getElem hi1, List.getElem?_eq_getElem hi2, List.getElem_zip, Option.bind_eq_bind, Option.bind_some]
      by_cases h' : levels[i] > poc
      · rw [if_pos h', if_pos h']
      · rw [if_neg h', if_neg h'])
    rw [hz] at hf
    rw [hf]
    simp only [Option.bind_eq_bind, Option.bind_some, if_neg h]

example : pctAbovePocChk [10, 11, 12] [1, 2, (5 : ℚ)] 10 = some (7 / 8) := by decide +kernel

/-! ## Bucketing -/

theorem bucketAddChk_eq (n : Int) (out : List K) (idx : List Int) (vols : List K) (hlen : idx.length = vols.length)
    (hin : ∀ b ∈ idx, 0 ≤ b → b ≤ n → b < out.length) : bucketAddChk n out idx vols = some (bucketAdd n out idx vols) := by
  unfold bucketAddChk bucketAdd
  have hz : (idx.zip vols).length = idx.length := by simp [hlen]
  have hf := foldlM_range_pairs (bucketStepChk n idx vols) (fun acc p => if 0 ≤ p.1 ∧ p.1 ≤ n then acc.modify p.1.toNat (· + p.2) else acc)
    (fun o : List K => o.length = out.length) (idx.zip vols) out rfl (by
      intro s i hi hs
      have hi1 : i < idx.length := by omega
      have hi2 : i < vols.length := by omega
      simp only [bucketStepChk, rd_nat idx, rd_nat vols, List.getElem?_eq_getElem hi1, List.getElem?_eq_getElem hi2, List.getElem_zip, Option.bind_eq_bind, Option.bind_some]
      by_cases h : 0 ≤ idx[i] ∧ idx[i] ≤ n
      · rw [if_pos h, if_pos h]
        have hb := hin idx[i] (List.getElem_mem _) h.1 h.2
        obtain ⟨b, hbe⟩ := Int.eq_ofNat_of_zero_le h.1
        rw [hbe] at hb ⊢
        have hbs : b < s.length := by rw [hs]; exact_mod_cast hb
        rw [rd_nat, List.getElem?_eq_getElem hbs]
        simp only [Option.bind_some]
        rw [wr_nat _ _ _ hbs]
        refine ⟨?_, by simp [hs]⟩
        congr 1
        apply List.ext_getElem?
        intro j
        rw [List.getElem?_set, List.getElem?_modify, Int.toNat_natCast]
        by_cases hj : b = j
        · subst hj; simp [hbs]
        · simp [hj]
      · rw [if_neg h, if_neg h]; exact ⟨rfl, hs⟩)
  rw [hz] at hf
  exact hf

/-- **C158**: bucketing an ascending profile with one volume per level writes inside its buckets, and equals the model. -/
theorem C158_buckets (levels : List Int) (vols : List K) (nBins : Int) (hlen : levels.length = vols.length) (hs : levels.Pairwise (· ≤ ·)) :
    bucketPriceLevelsChk levels vols nBins = some (bucketPriceLevels levels vols nBins) := by
  unfold bucketPriceLevelsChk bucketPriceLevels
  by_cases hne : levels = []
  · rw [if_pos hne, if_pos hne]
  rw [if_neg hne, if_neg hne]
  by_cases hb : nBins = 0
  · rw [if_pos hb, if_pos hb]
  rw [if_neg hb, if_neg hb]
  dsimp only
  have hmn := intMin_sorted hne hs
  have hmx := intMax_sorted hne hs
  have hle : ∀ p ∈ levels, p ≤ intMax levels := by
    intro p hp
    rw [hmx]
    obtain ⟨i, hi, rfl⟩ := List.getElem_of_mem hp
    rw [List.getLast_eq_getElem]
    by_cases h : i = levels.length - 1
    · subst h; exact le_rfl
    · exact (List.pairwise_iff_getElem.mp hs) _ _ _ _ (by omega)
  have hmnmx : intMin levels ≤ intMax levels := by rw [hmn]; exact hle _ (List.head_mem hne)
  have hlast : ((levels.map (fun p => (searchRight (if (arange (intMin levels) (intMax levels + bucketWidth (intMax levels - intMin levels) nBins)
        (bucketWidth (intMax levels - intMin levels) nBins)).length < 2 then [intMin levels, intMax levels + 1]
        else arange (intMin levels) (intMax levels + bucketWidth (intMax levels - intMin levels) nBins) (bucketWidth (intMax levels - intMin levels) nBins)) p : Int) - 1)).getLastD 0)
      = (searchRight (if (arange (intMin levels) (intMax levels + bucketWidth (intMax levels - intMin levels) nBins)
        (bucketWidth (intMax levels - intMin levels) nBins)).length < 2 then [intMin levels, intMax levels + 1]
        else arange (intMin levels) (intMax levels + bucketWidth (intMax levels - intMin levels) nBins) (bucketWidth (intMax levels - intMin levels) nBins)) (intMax levels) : Int) - 1 := by
    rw [List.getLastD_eq_getLast?, List.getLast?_map, List.getLast?_eq_some_getLast hne, ← hmx]
    rfl
  rw [hlast]
  generalize bucketWidth (intMax levels - intMin levels) nBins = bw
  generalize hE : arange (intMin levels) (intMax levels + bw) bw = edges0
  generalize hG : (if edges0.length < 2 then [intMin levels, intMax levels + 1] else edges0) = edges
  by_cases hl : (searchRight edges (intMax levels) : Int) - 1 = ((edges0.length - 1 : Nat) : Int)
  · rw [if_pos hl, if_pos hl, bucketAddChk_eq _ _ _ _ (by simpa using hlen)]
    · rfl
    · intro b _ _ h2
      rw [List.length_replicate]; push_cast; omega
  · rw [if_neg hl, if_neg hl, bucketAddChk_eq _ _ _ _ (by simpa using hlen)]
    · rfl
    · intro b hb0 h0 h2
      rw [List.length_replicate]
      rw [List.mem_map] at hb0
      obtain ⟨p, hp, rfl⟩ := hb0
      have hmono := searchRight_le_of_le edges (hle p hp)
      by_cases he : edges0.length < 2
      · exfalso
        rw [if_pos he] at hG
        have h1 : searchRight edges (intMax levels) = 1 := by
          rw [← hG]
          simp [searchRight, List.takeWhile, hmnmx]
        rw [h1] at hl
        have : edges0.length - 1 = 0 := by omega
        rw [this] at hl
        exact hl (by norm_num)
      · rw [if_neg he] at hG
        have hle' := searchRight_le_length edges (intMax levels)
        have : edges.length = edges0.length := by rw [hG]
        omega

example : (∃ r, bucketPriceLevelsChk [10, 11, 12, 13] [1, 2, 3, (4 : ℚ)] 2 = some (.ok r) ∧ r.2.sum = 10) ∧
    ([10, 11, 12, 13] : List Int).Pairwise (· ≤ ·) := by
  refine ⟨⟨_, rfl, by decide +kernel⟩, by decide⟩

/-- **C158**: a profile that is not ascending may be written one past the end of the buckets: the leftover bucket is only allotted when the last level falls into it. -/
theorem C158_buckets_unsorted : bucketPriceLevelsChk [14, 10, 11] [1, 2, (3 : ℚ)] 4 = none := by decide +kernel

/-! ## Alignment of footprints -/

theorem putAll_chk (a : List K) (z : List (Nat × K)) (h : ∀ p ∈ z, p.1 < a.length) :
    z.foldlM (fun acc p => wr acc (p.1 : Int) p.2) a = some (z.foldl (fun acc p => acc.set p.1 p.2) a) := by
  induction z generalizing a with
  | nil => rfl
  | cons p z ih =>
    rw [List.foldlM_cons, wr_nat _ _ _ (h p (by simp)), List.foldl_cons]
    exact ih (a.set p.1 p.2) (fun q hq => by rw [List.length_set]; exact h q (by simp [hq]))

theorem fancyAddChk_eq (a : List K) (idx : List Nat) (v : List K) (h : ∀ i ∈ idx, i < a.length) : fancyAddChk a idx v = some (fancyAdd a idx v) := by
  unfold fancyAddChk fancyAdd putAll
  rw [mapM_eq_some_map _ (fun p : Nat × K => a.getD p.1 0 + p.2) _ (by
    intro p hp
    rw [rd_getD a 0 p.1 (h _ (List.of_mem_zip hp).1)]
    rfl)]
  simp only [Option.bind_eq_bind, Option.bind_some]
  have hz : (idx.zip v).map (fun p : Nat × K => a.getD p.1 0 + p.2) = List.zipWith (fun k x => a.getD k 0 + x) idx v := by
    rw [List.zip, List.map_zipWith]
  rw [hz]
  exact putAll_chk a _ (fun p hp => h _ (List.of_mem_zip hp).1)

theorem mapM_none_of {α β : Type} (f : α → Option β) (l : List α) (a : α) (ha : a ∈ l) (h : f a = none) : l.mapM f = none := by
  induction l with
  | nil => simp at ha
  | cons b l ih =>
    rw [List.mapM_cons]
    rcases List.mem_cons.mp ha with rfl | ha'
    · rw [h]; rfl
    · rw [ih ha']
      cases f b <;> rfl

theorem fancyAddChk_none (a : List K) (idx : List Nat) (v : List K) (hlen : idx.length = v.length) (i : Nat) (hi : i ∈ idx) (h : a.length ≤ i) :
    fancyAddChk a idx v = none := by
  obtain ⟨k, hk, rfl⟩ := List.getElem_of_mem hi
  unfold fancyAddChk
  rw [mapM_none_of _ _ (idx[k], v[k]'(by omega)) (by
    rw [List.mem_iff_getElem]
    exact ⟨k, by simp; omega, by simp⟩) (by
      dsimp only
      rw [rd_short _ _ h]; rfl)]
  rfl

/-- A level has a place on the grid of ticks `lo … hi` exactly when it is not above `hi` (and the grid is not empty). -/
theorem searchLeft_grid_lt (lo hi p : Int) : searchLeft (arange lo (hi + 1) 1) p < (arange lo (hi + 1) 1).length ↔ lo ≤ hi ∧ p ≤ hi := by
  have hs : (arange lo (hi + 1) 1).Pairwise (· ≤ ·) := by
    rw [List.pairwise_iff_getElem]
    intro i j hi hj hij
    rw [arange_getElem, arange_getElem]; omega
  have hL : ∀ i : Nat, i < (arange lo (hi + 1) 1).length ↔ lo + (i : Int) < hi + 1 := fun i => by
    rw [lt_arange_length (by norm_num), mul_one]
  have hle := searchLeft_le_length (arange lo (hi + 1) 1) p
  have key : ∀ j : Nat, j < (arange lo (hi + 1) 1).length →
      (j < searchLeft (arange lo (hi + 1) 1) p ↔ lo + (j : Int) < p) := fun j hj => by
    rw [lt_searchLeft hs _ _ hj, arange_getElem, mul_one]
  generalize searchLeft (arange lo (hi + 1) 1) p = s at *
  constructor
  · intro h
    have h1 := (hL s).mp h
    have h2 := (key s h).not.mp (lt_irrefl s)
    omega
  · rintro ⟨h1, h2⟩
    by_contra hn
    have hm := (hL (hi - lo).toNat).mpr (by omega)
    have := (key (hi - lo).toNat hm).mp (by omega)
    omega

theorem alignStep_length (grid : List Int) (acc : List K × List K) (b : FpBar K) :
    (alignStep grid acc b).1.length = acc.1.length ∧ (alignStep grid acc b).2.length = acc.2.length := by
  exact ⟨fancyAdd_length _ _ _, fancyAdd_length _ _ _⟩

theorem alignFold_chk (grid : List Int) (bars : List (FpBar K)) (acc : List K × List K) (h1 : acc.1.length = grid.length) (h2 : acc.2.length = grid.length)
    (hin : ∀ b ∈ bars, ∀ p ∈ b.levels, searchLeft grid p < grid.length) :
    bars.foldlM (alignStepChk grid) acc = some (bars.foldl (alignStep grid) acc) := by
  induction bars generalizing acc with
  | nil => rfl
  | cons b bars ih =>
    have hidx : ∀ i ∈ b.levels.map (searchLeft grid), i < grid.length := by
      intro i hi
      rw [List.mem_map] at hi
      obtain ⟨p, hp, rfl⟩ := hi
      exact hin b (by simp) p hp
    have hstep : alignStepChk grid acc b = some (alignStep grid acc b) := by
      unfold alignStepChk alignStep
      dsimp only
      rw [fancyAddChk_eq _ _ _ (by rw [h1]; exact hidx), fancyAddChk_eq _ _ _ (by rw [h2]; exact hidx)]
      rfl
    rw [List.foldlM_cons, hstep, List.foldl_cons]
    have hl := alignStep_length grid acc b
    exact ih (alignStep grid acc b) (by rw [hl.1, h1]) (by rw [hl.2, h2]) (fun c hc => hin c (by simp [hc]))

/-- Highest tick of the grid of a window of bars. -/
def topTick (rnd : K → Int) (bars : List (FpBar K)) : Int := rnd (npMax (bars.map FpBar.high))

/-- Lowest tick of the grid of a window of bars. -/
def bottomTick (rnd : K → Int) (bars : List (FpBar K)) : Int := rnd (npMin (bars.map FpBar.low))

/-- **C158**: when no level of a selected bar lies above the rounded highest price, the alignment stays inside its arrays and equals the model. -/
theorem C158_aggregate (rnd : K → Int) (bars : List (FpBar K)) (startTs endTs : Int)
    (hg : bottomTick rnd (fpWindow bars startTs endTs) ≤ topTick rnd (fpWindow bars startTs endTs))
    (hin : ∀ b ∈ fpWindow bars startTs endTs, ∀ p ∈ b.levels, p ≤ topTick rnd (fpWindow bars startTs endTs)) :
    aggregateFootprintChk rnd bars startTs endTs = some (aggregateFootprint rnd bars startTs endTs) := by
  unfold aggregateFootprintChk aggregateFootprint
  cases hw : fpWindow bars startTs endTs with
  | nil => rfl
  | cons b bs =>
    rw [hw] at hin hg
    dsimp only
    rw [alignFold_chk (tickGrid rnd (b :: bs)) _ _ (by simp) (by simp) (fun c hc p hp => (searchLeft_grid_lt _ _ p).mpr ⟨hg, hin c hc p hp⟩)]
    rfl

/-- **C158**: a level above the rounded highest price of the selected bars is written past the end of the aligned volumes. -/
theorem C158_aggregate_above (rnd : K → Int) (bars : List (FpBar K)) (startTs endTs : Int) (b : FpBar K) (hb : b ∈ fpWindow bars startTs endTs)
    (hlen : b.levels.length = b.buy.length) (p : Int) (hp : p ∈ b.levels) (h : topTick rnd (fpWindow bars startTs endTs) < p) :
    aggregateFootprintChk rnd bars startTs endTs = none := by
  unfold aggregateFootprintChk
  cases hw : fpWindow bars startTs endTs with
  | nil => rw [hw] at hb; simp at hb
  | cons c cs =>
    rw [hw] at hb h
    dsimp only
    have hlt : ¬ searchLeft (tickGrid rnd (c :: cs)) p < (tickGrid rnd (c :: cs)).length := by
      intro hc
      have := (searchLeft_grid_lt _ _ p).mp hc
      unfold topTick at h
      omega
    have hnone : ∀ (l : List (FpBar K)) (acc : List K × List K), b ∈ l → acc.1.length = (tickGrid rnd (c :: cs)).length →
        l.foldlM (alignStepChk (tickGrid rnd (c :: cs))) acc = none := by
      intro l
      induction l with
      | nil => intro acc hm; simp at hm
      | cons d l ih =>
        intro acc hm hacc
        rw [List.foldlM_cons]
        by_cases hd : b = d
        · subst hd
          have : alignStepChk (tickGrid rnd (c :: cs)) acc b = none := by
            unfold alignStepChk
            dsimp only
            rw [fancyAddChk_none acc.1 _ b.buy (by simpa using hlen) (searchLeft (tickGrid rnd (c :: cs)) p) (List.mem_map_of_mem hp) (by omega)]
            rfl
          rw [this]; rfl
        · have hm' : b ∈ l := by
            rcases List.mem_cons.mp hm with h1 | h1
            · exact absurd h1 hd
            · exact h1
          cases hs : alignStepChk (tickGrid rnd (c :: cs)) acc d with
          | none => rfl
          | some acc' =>
            refine ih acc' hm' ?_
            have hlenw : ∀ (z : List (Nat × K)) (a a' : List K), z.foldlM (fun acc p => wr acc (p.1 : Int) p.2) a = some a' → a'.length = a.length := by
              intro z
              induction z with
              | nil => intro a a' h; rw [← Option.some.inj h]
              | cons q z ihz =>
                intro a a' h
                rw [List.foldlM_cons] at h
                cases hq : wr a (q.1 : Int) q.2 with
                | none => rw [hq] at h; exact absurd h (by simp)
                | some a1 =>
                  rw [hq] at h
                  rw [ihz a1 a' h]
                  unfold wr at hq
                  split at hq
                  · rw [← Option.some.inj hq, List.length_set]
                  · exact absurd hq (by simp)
            have hfa : ∀ (a : List K) (idx : List Nat) (v a' : List K), fancyAddChk a idx v = some a' → a'.length = a.length := by
              intro a idx v a' h
              unfold fancyAddChk at h
              rw [Option.bind_eq_bind, Option.bind_eq_some_iff] at h
              obtain ⟨sums, _, h2⟩ := h
              exact hlenw _ _ _ h2
            unfold alignStepChk at hs
            dsimp only at hs
            rw [Option.bind_eq_bind, Option.bind_eq_some_iff] at hs
            obtain ⟨x, hx, hs⟩ := hs
            rw [Option.bind_eq_some_iff] at hs
            obtain ⟨y, _, hs⟩ := hs
            rw [← Option.some.inj hs]
            dsimp only
            rw [hfa _ _ _ _ hx, hacc]
    rw [hnone (c :: cs) _ hb (by simp)]
    rfl

example : aggregateFootprintChk (fun x : ℚ => x.floor) [⟨1, 12, 10, [10, 12], [1, 2], [3, 4]⟩, ⟨2, 11, 10, [11], [5], [6]⟩] 1 2 =
    some (.ok ([10, 11, 12], [1, 5, 2], [3, 6, 4])) := by decide +kernel

example : aggregateFootprintChk (fun x : ℚ => x.floor) [⟨1, 12, 10, [10, 13], [1, 2], [3, 4]⟩] 1 2 = none := by decide +kernel

/-! ## Trimming -/

theorem trimLeftChk_eq (v : List K) (k a : Nat) (h : a + k = v.length) :
    trimLeftChk v ((v.length : Int) - 1) k (a : Int) = some ((a + ((v.drop a).takeWhile (fun x => decide (x = 0))).length : Nat) : Int) := by
  induction k generalizing a with
  | zero => rw [List.drop_of_length_le (by omega)]; rfl
  | succ k ih =>
    have ha : a < v.length := by omega
    unfold trimLeftChk
    rw [if_pos (by omega), rd_nat, List.getElem?_eq_getElem ha, List.drop_eq_getElem_cons ha]
    simp only [Option.bind_eq_bind, Option.bind_some]
    by_cases h0 : v[a] = 0
    · rw [if_pos h0, show ((a : Int) + 1) = ((a + 1 : Nat) : Int) by omega, ih (a + 1) (by omega), List.takeWhile_cons_of_pos (by simp [h0])]
      simp; omega
    · rw [if_neg h0, List.takeWhile_cons_of_neg (by simp [h0])]
      simp

theorem trimRightChk_eq (v : List K) (left k m : Nat) (hm : m ≤ k) (h : left + m ≤ v.length) :
    trimRightChk v (left : Int) k ((left : Int) + (m : Int) - 1) =
      some ((left : Int) + ((((v.drop left).take m).rdropWhile (fun x => decide (x = 0))).length : Int) - 1) := by
  induction k generalizing m with
  | zero =>
    have : m = 0 := by omega
    subst this
    simp [trimRightChk]
  | succ k ih =>
    unfold trimRightChk
    cases m with
    | zero => rw [if_neg (by omega)]; simp
    | succ m =>
      have hl : left + m < v.length := by omega
      rw [if_pos (by omega), show ((left : Int) + ((m + 1 : Nat) : Int) - 1) = ((left + m : Nat) : Int) by omega, rd_nat, List.getElem?_eq_getElem hl]
      simp only [Option.bind_eq_bind, Option.bind_some]
      have ht : (v.drop left).take (m + 1) = (v.drop left).take m ++ [v[left + m]] := by
        rw [List.take_add_one, List.getElem?_drop, List.getElem?_eq_getElem hl]; rfl
      rw [ht]
      by_cases h0 : v[left + m] = 0
      · rw [if_pos h0, List.rdropWhile_concat_pos _ _ _ (by simp [h0]), show (((left + m : Nat) : Int) - 1) = (left : Int) + (m : Int) - 1 by omega]
        exact ih m (by omega) (by omega)
      · rw [if_neg h0, List.rdropWhile_concat_neg _ _ _ (by simp [h0])]
        simp only [List.length_append, List.length_take, List.length_drop, List.length_singleton]
        congr 1
        omega

theorem rdropWhile_map {α β : Type} (f : α → β) (p : β → Bool) (l : List α) : (l.map f).rdropWhile p = (l.rdropWhile (fun a => p (f a))).map f := by
  unfold List.rdropWhile
  rw [← List.map_reverse, List.dropWhile_map, List.map_reverse]
  rfl

theorem dropWhile_eq_drop {α : Type} (p : α → Bool) (l : List α) : l.dropWhile p = l.drop (l.takeWhile p).length := by
  induction l with
  | nil => rfl
  | cons a l ih =>
    cases h : p a with
    | true => rw [List.dropWhile_cons_of_pos h, List.takeWhile_cons_of_pos h, List.length_cons, List.drop_succ_cons]; exact ih
    | false => rw [List.dropWhile_cons_of_neg (by simp [h]), List.takeWhile_cons_of_neg (by simp [h])]; rfl

/-- **C158**: with one volume per level, cutting off the empty levels at both ends stays inside the arrays and equals the model. -/
theorem C158_trim (r8 : K → K) (levels : List Int) (vols : List K) (hlen : levels.length = vols.length) :
    trimZerosChk r8 levels vols = some (trimZeros r8 levels vols) := by
  have hv : (vols.map r8).length = levels.length := by simp [hlen]
  unfold trimZerosChk trimZeros
  dsimp only
  generalize vols.map r8 = v at hv
  have h1 := trimLeftChk_eq v levels.length 0 (by omega)
  rw [hv, Nat.zero_add, List.drop_zero] at h1
  have h1' : trimLeftChk v ((levels.length : Int) - 1) levels.length 0 = some (((v.takeWhile (fun x => decide (x = 0))).length : Nat) : Int) := h1
  have hL : (v.takeWhile (fun x => decide (x = 0))).length ≤ v.length := List.Sublist.length_le (List.takeWhile_sublist _)
  have h2 := trimRightChk_eq v (v.takeWhile (fun x => decide (x = 0))).length levels.length (levels.length - (v.takeWhile (fun x => decide (x = 0))).length) (by omega) (by omega)
  rw [List.take_of_length_le (by simp; omega), show (((v.takeWhile (fun x => decide (x = 0))).length : Int) +
    ((levels.length - (v.takeWhile (fun x => decide (x = 0))).length : Nat) : Int) - 1) = (levels.length : Int) - 1 by omega] at h2
  rw [h1']
  simp only [Option.bind_eq_bind, Option.bind_some]
  rw [h2]
  simp only [Option.bind_some]
  -- the kept part of the zipped arrays
  have hz2 : (levels.zip v).map Prod.snd = v := List.map_snd_zip (by omega)
  have hz1 : (levels.zip v).map Prod.fst = levels := List.map_fst_zip (by omega)
  generalize hz : levels.zip v = z at hz1 hz2
  have hT : (v.takeWhile (fun x => decide (x = 0))).length = (z.takeWhile (fun p => decide (p.2 = 0))).length := by
    rw [← hz2, List.takeWhile_map, List.length_map]; rfl
  rw [dropWhile_eq_drop (fun p : Int × K => decide (p.2 = 0)) z, ← hT]
  have hR : ((v.drop (v.takeWhile (fun x => decide (x = 0))).length).rdropWhile (fun x => decide (x = 0))).length =
      ((z.drop (v.takeWhile (fun x => decide (x = 0))).length).rdropWhile (fun p => decide (p.2 = 0))).length := by
    conv_lhs => rw [← hz2]
    rw [← List.map_drop, rdropWhile_map, List.length_map]
    rw [hz2]
  rw [hR]
  have hpre := List.rdropWhile_prefix (fun p : Int × K => decide (p.2 = 0)) (l := z.drop (v.takeWhile (fun x => decide (x = 0))).length)
  have hk : ((z.drop (v.takeWhile (fun x => decide (x = 0))).length).reverse.dropWhile (fun p => decide (p.2 = 0))).reverse =
      (z.drop (v.takeWhile (fun x => decide (x = 0))).length).rdropWhile (fun p => decide (p.2 = 0)) := rfl
  rw [hk]
  generalize (v.takeWhile (fun x => decide (x = 0))).length = a at *
  rw [List.prefix_iff_eq_take] at hpre
  generalize hr : (z.drop a).rdropWhile (fun p => decide (p.2 = 0)) = r at *
  have e : ((a : Int) + (r.length : Int) - 1 + 1).toNat = a + r.length := by omega
  have e2 : ((a : Nat) : Int).toNat = a := Int.toNat_natCast a
  rw [e, e2]
  have m1 : r.map Prod.fst = (levels.drop a).take r.length := by
    conv_lhs => rw [hpre]
    rw [List.map_take, List.map_drop, hz1]
  have m2 : r.map Prod.snd = (v.drop a).take r.length := by
    conv_lhs => rw [hpre]
    rw [List.map_take, List.map_drop, hz2]
  rw [m1, m2, List.drop_take, List.drop_take, Nat.add_sub_cancel_left]

example : trimZerosChk (fun x : ℚ => x) [10, 11, 12, 13] [0, 1, 0, 0] = some ([11], [1]) := by decide +kernel

end FinML

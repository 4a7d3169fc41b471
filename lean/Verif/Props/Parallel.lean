/-
C128: the result of a parallel loop does not depend on the schedule.
-/
import Verif.Model.Parallel
import Mathlib.Data.List.Count
import Mathlib.Tactic.Linarith

set_option linter.unusedSectionVars false

namespace FinML

section General

variable {C L V : Type} [DecidableEq C]

/-- No two iterations access the same cell. -/
def CellDisjoint (prog : Nat → List (POp C L V)) : Prop :=
  ∀ i j, i ≠ j → ∀ c ∈ POp.cells (prog i), c ∉ POp.cells (prog j)

theorem cells_append (p q : List (POp C L V)) : POp.cells (p ++ q) = POp.cells p ++ POp.cells q := by
  induction p with
  | nil => rfl
  | cons o p ih => cases o <;> simp [POp.cells, ih]

/-- A step depends only on its own cells. -/
theorem step_agree (o : POp C L V) (S : C → Prop) (hS : ∀ c ∈ POp.cells [o], S c) (l : L) (m m' : C → V) (h : ∀ c, S c → m c = m' c) :
    (o.step (l, m)).1 = (o.step (l, m')).1 ∧ ∀ c, S c → (o.step (l, m)).2 c = (o.step (l, m')).2 c := by
  cases o with
  | reg f => exact ⟨rfl, h⟩
  | acc c run =>
    have hc : m c = m' c := h c (hS c (by simp [POp.cells]))
    simp only [POp.step, hc]
    refine ⟨trivial, fun c' hc' => ?_⟩
    by_cases e : c' = c
    · rw [if_pos e, if_pos e]
    · rw [if_neg e, if_neg e]; exact h c' hc'

/-- A step leaves the other cells alone. -/
theorem step_frame (o : POp C L V) (s : L × (C → V)) (c : C) (h : c ∉ POp.cells [o]) : (o.step s).2 c = s.2 c := by
  cases o with
  | reg f => rfl
  | acc c' run =>
    simp only [POp.step]
    rw [if_neg]
    simpa [POp.cells] using h

theorem runAlone_agree (p : List (POp C L V)) (S : C → Prop) (hS : ∀ c ∈ POp.cells p, S c) (l : L) (m m' : C → V)
    (h : ∀ c, S c → m c = m' c) :
    (runAlone p (l, m)).1 = (runAlone p (l, m')).1 ∧ ∀ c, S c → (runAlone p (l, m)).2 c = (runAlone p (l, m')).2 c := by
  induction p generalizing l m m' with
  | nil => exact ⟨rfl, h⟩
  | cons o p ih =>
    have hsplit : POp.cells (o :: p) = POp.cells [o] ++ POp.cells p := cells_append [o] p
    have ho : ∀ c ∈ POp.cells [o], S c := fun c hc => hS c (by rw [hsplit]; exact List.mem_append_left _ hc)
    have hp : ∀ c ∈ POp.cells p, S c := fun c hc => hS c (by rw [hsplit]; exact List.mem_append_right _ hc)
    obtain ⟨h1, h2⟩ := step_agree o S ho l m m' h
    have e := ih hp (o.step (l, m)).1 (o.step (l, m)).2 (o.step (l, m')).2 h2
    constructor
    · show (runAlone p (o.step (l, m))).1 = (runAlone p (o.step (l, m'))).1
      rw [show o.step (l, m') = ((o.step (l, m)).1, (o.step (l, m')).2) from Prod.ext h1.symm rfl]
      exact e.1
    · intro c hc
      show (runAlone p (o.step (l, m))).2 c = (runAlone p (o.step (l, m'))).2 c
      rw [show o.step (l, m') = ((o.step (l, m)).1, (o.step (l, m')).2) from Prod.ext h1.symm rfl]
      exact e.2 c hc

theorem runAlone_frame (p : List (POp C L V)) (s : L × (C → V)) (c : C) (h : c ∉ POp.cells p) : (runAlone p s).2 c = s.2 c := by
  induction p generalizing s with
  | nil => rfl
  | cons o p ih =>
    have hsplit : POp.cells (o :: p) = POp.cells [o] ++ POp.cells p := cells_append [o] p
    rw [hsplit, List.mem_append, not_or] at h
    show (runAlone p (o.step s)).2 c = _
    rw [ih _ h.2, step_frame o s c h.1]

/-- How far an iteration has come depends only on how often it was scheduled. -/
theorem C128_progress (s : PState C L V) (sched : List Nat) (i : Nat) : (s.run sched).prog i = (s.prog i).drop (sched.count i) := by
  induction sched generalizing s with
  | nil => rfl
  | cons k sched ih =>
    show ((s.next k).run sched).prog i = _
    rw [ih]
    by_cases hk : i = k
    · subst hk
      rw [List.count_cons_self]
      unfold PState.next
      cases hp : s.prog i with
      | nil => simp [hp]
      | cons o p => simp
    · rw [List.count_cons_of_ne (fun h => hk h.symm)]
      have : (s.next k).prog i = s.prog i := by
        unfold PState.next
        cases hp : s.prog k with
        | nil => rfl
        | cons o p => simp [hk]
      rw [this]

/-- The invariant of every execution: each iteration sees the registers and the cells it would see alone. -/
theorem run_invariant (s0 : PState C L V) (hd : CellDisjoint s0.prog) (sched : List Nat) :
    (∀ i, ∃ d, s0.prog i = d ++ (s0.run sched).prog i ∧
      (s0.run sched).regs i = (runAlone d (s0.regs i, s0.mem)).1 ∧
      ∀ c ∈ POp.cells (s0.prog i), (s0.run sched).mem c = (runAlone d (s0.regs i, s0.mem)).2 c) ∧
    (∀ c, (∀ i, c ∉ POp.cells (s0.prog i)) → (s0.run sched).mem c = s0.mem c) := by
  induction sched using List.reverseRecOn with
  | nil => exact ⟨fun i => ⟨[], rfl, rfl, fun _ _ => rfl⟩, fun _ _ => rfl⟩
  | append_singleton sched k ih =>
    obtain ⟨ih1, ih2⟩ := ih
    have hrun : s0.run (sched ++ [k]) = (s0.run sched).next k := by unfold PState.run; rw [List.foldl_append]; rfl
    rw [hrun]
    obtain ⟨s, hs⟩ : ∃ s, s = s0.run sched := ⟨_, rfl⟩
    rw [← hs] at ih1 ih2 ⊢
    cases hp : s.prog k with
    | nil =>
      have : s.next k = s := by unfold PState.next; rw [hp]
      rw [this]; exact ⟨ih1, ih2⟩
    | cons o p =>
      have e1 : (s.next k).regs = fun j => if j = k then (o.step (s.regs k, s.mem)).1 else s.regs j := by unfold PState.next; rw [hp]
      have e2 : (s.next k).prog = fun j => if j = k then p else s.prog j := by unfold PState.next; rw [hp]
      have e3 : (s.next k).mem = (o.step (s.regs k, s.mem)).2 := by unfold PState.next; rw [hp]
      obtain ⟨dk, hk1, hk2, hk3⟩ := ih1 k
      rw [hp] at hk1
      have hcells : ∀ c ∈ POp.cells [o], c ∈ POp.cells (s0.prog k) := by
        intro c hc
        rw [hk1, cells_append, List.mem_append]
        right
        rw [show o :: p = [o] ++ p from rfl, cells_append, List.mem_append]
        exact Or.inl hc
      rw [e1, e2, e3]
      constructor
      · intro i
        beta_reduce
        by_cases hi : i = k
        · subst hi
          refine ⟨dk ++ [o], ?_, ?_, ?_⟩
          · rw [if_pos rfl, hk1]; simp
          · rw [if_pos rfl]
            have : runAlone (dk ++ [o]) (s0.regs i, s0.mem) = o.step (runAlone dk (s0.regs i, s0.mem)) := by
              unfold runAlone; rw [List.foldl_append]; rfl
            rw [this]
            have := (step_agree o (fun c => c ∈ POp.cells (s0.prog i)) hcells (s.regs i) s.mem _ hk3).1
            rw [this, hk2]
          · intro c hc
            have : runAlone (dk ++ [o]) (s0.regs i, s0.mem) = o.step (runAlone dk (s0.regs i, s0.mem)) := by
              unfold runAlone; rw [List.foldl_append]; rfl
            rw [this]
            have := (step_agree o (fun c => c ∈ POp.cells (s0.prog i)) hcells (s.regs i) s.mem _ hk3).2 c hc
            rw [this, hk2]
        · obtain ⟨d, h1, h2, h3⟩ := ih1 i
          refine ⟨d, ?_, ?_, ?_⟩
          · rw [if_neg hi]; exact h1
          · rw [if_neg hi]; exact h2
          · intro c hc
            rw [step_frame o _ c (fun h => hd i k hi c hc (hcells c h))]
            exact h3 c hc
      · intro c hc
        rw [step_frame o _ c (fun h => hc k (hcells c h))]
        exact ih2 c hc

/-- The sequential loop, cell by cell. -/
theorem seqLoop_cell (regs : Nat → L) (prog : Nat → List (POp C L V)) (hd : CellDisjoint prog) (m : C → V) (n : Nat) :
    (∀ i < n, ∀ c ∈ POp.cells (prog i), seqLoop regs prog m n c = (runAlone (prog i) (regs i, m)).2 c) ∧
    (∀ c, (∀ i < n, c ∉ POp.cells (prog i)) → seqLoop regs prog m n c = m c) := by
  induction n with
  | zero => exact ⟨fun i hi => absurd hi (by omega), fun _ _ => rfl⟩
  | succ n ih =>
    obtain ⟨ih1, ih2⟩ := ih
    constructor
    · intro i hi c hc
      unfold seqLoop
      rcases Nat.lt_or_ge i n with h | h
      · rw [runAlone_frame _ _ _ (hd i n (by omega) c hc)]
        exact ih1 i h c hc
      · obtain rfl : i = n := by omega
        apply (runAlone_agree (prog i) (fun c => c ∈ POp.cells (prog i)) (fun c h => h) (regs i) _ _ _).2 c hc
        intro c' hc'
        exact ih2 c' (fun j hj => hd i j (by omega) c' hc')
    · intro c hc
      unfold seqLoop
      rw [runAlone_frame _ _ _ (hc n (by omega))]
      exact ih2 c (fun i hi => hc i (by omega))

/-- **C128.** If no two iterations access the same cell, then every schedule that lets all iterations finish leaves the memory of the
sequential loop, whatever the interleaving of the single accesses. -/
theorem C128_schedule_independent (s0 : PState C L V) (hd : CellDisjoint s0.prog) (n : Nat) (hn : ∀ i, n ≤ i → s0.prog i = [])
    (sched : List Nat) (hf : ∀ i < n, (s0.prog i).length ≤ sched.count i) :
    (s0.run sched).mem = seqLoop s0.regs s0.prog s0.mem n := by
  obtain ⟨h1, h2⟩ := run_invariant s0 hd sched
  obtain ⟨q1, q2⟩ := seqLoop_cell s0.regs s0.prog hd s0.mem n
  funext c
  by_cases hc : ∃ i, i < n ∧ c ∈ POp.cells (s0.prog i)
  · obtain ⟨i, hi, hci⟩ := hc
    obtain ⟨d, e, _, hm⟩ := h1 i
    rw [C128_progress, List.drop_eq_nil_of_le (hf i hi), List.append_nil] at e
    rw [hm c hci, q1 i hi c hci, ← e]
  · have hc' : ∀ i, c ∉ POp.cells (s0.prog i) := by
      intro i hci
      rcases Nat.lt_or_ge i n with h | h
      · exact hc ⟨i, h, hci⟩
      · rw [hn i h] at hci; simp [POp.cells] at hci
    rw [h2 c hc', q2 c (fun i _ => hc' i)]

/-- **C128.** A loop whose iteration `i` stores one value in `out[i]`, as in the moving average, the z-score, the true range or the lagged
returns: under every complete schedule `out[i]` is the value of iteration `i`. -/
theorem C128_one_store (f : Nat → V) (n : Nat) (m : Nat → V) (sched : List Nat) (hf : ∀ i < n, 1 ≤ sched.count i) (i : Nat) :
    ((⟨fun _ => (), fun i => if i < n then [POp.acc i (fun l _ => (l, f i))] else [], m⟩ : PState Nat Unit V).run sched).mem i =
      if i < n then f i else m i := by
  obtain ⟨prog, hprog⟩ : ∃ prog : Nat → List (POp Nat Unit V), prog = fun i => if i < n then [POp.acc i (fun l _ => (l, f i))] else [] := ⟨_, rfl⟩
  have hcell : ∀ i, ∀ c ∈ POp.cells (prog i), c = i := by
    intro i c hc
    rw [hprog] at hc
    by_cases h : i < n
    · simpa [h, POp.cells] using hc
    · simp [h, POp.cells] at hc
  have hd : CellDisjoint prog := fun i j hij c h1 h2 => hij ((hcell i c h1).symm.trans (hcell j c h2))
  rw [← hprog]
  rw [C128_schedule_independent ⟨fun _ => (), prog, m⟩ hd n (fun i hi => by simp only [hprog]; rw [if_neg (by omega)]) sched
    (fun i hi => by simp only [hprog]; rw [if_pos hi]; exact hf i hi)]
  obtain ⟨q1, q2⟩ := seqLoop_cell (fun _ => ()) prog hd m n
  by_cases h : i < n
  · rw [if_pos h, q1 i h i (by rw [hprog]; simp [h, POp.cells]), hprog]
    simp [h, runAlone, POp.step]
  · rw [if_neg h, q2 i]
    intro j hj hc
    have := hcell j i hc
    omega

example : ((⟨fun _ => (), fun i => if i < 3 then [POp.acc i (fun l _ => (l, 10 * i))] else [], fun _ => 7⟩ : PState Nat Unit Nat).run [2, 0, 1]).mem 1 = 10 := by
  decide +kernel

end General

/-- **C128.** The disjointness is needed: two iterations that add 1 to the same cell (load, then store) give 2 or, when both load before
either stores, 1. -/
theorem C128_shared_cell :
    let add : List (POp Unit Int Int) := [.acc () (fun _ v => (v, v)), .acc () (fun l _ => (l, l + 1))]
    let s0 : PState Unit Int Int := ⟨fun _ => 0, fun i => if i < 2 then add else [], fun _ => 0⟩
    (s0.run [0, 0, 1, 1]).mem () = 2 ∧ (s0.run [0, 1, 0, 1]).mem () = 1 := by
  intro add s0
  exact ⟨by decide, by decide⟩

/-! ### The directional features -/

variable {K : Type} [Field K] [LinearOrder K] [IsStrictOrderedRing K]

theorem dirStep_eq (s : DirAcc K) (t : DirTick K) :
    dirStep s t = if t.side = 1 ∨ t.side = -1 then dirExtremes (dirSums s t) else dirSums s t := by
  unfold dirStep dirSums
  by_cases h1 : t.side = 1
  · simp [h1]
  · by_cases h2 : t.side = -1
    · simp [h2]
    · simp [h1, h2]

theorem dirExtremeOps_cells (i : Nat) : ∀ c ∈ POp.cells (dirExtremeOps (K := K) i), c.2 = i := by
  intro c hc
  simp only [dirExtremeOps, dirLoad, dirStore, POp.cells, List.mem_cons, List.not_mem_nil, or_false] at hc
  rcases hc with h | h | h | h | h | h | h | h | h | h | h | h <;> rw [h]

theorem dirProg_cells (prices volumes : List K) (sides closes : List Int) (i : Nat) :
    ∀ c ∈ POp.cells (dirProg prices volumes sides closes i), c.2 = i := by
  intro c hc
  unfold dirProg at hc
  cases h : (closePairs closes)[i]? with
  | none => rw [h] at hc; simp [POp.cells] at hc
  | some p =>
    rw [h] at hc
    simp only at hc
    rw [cells_append, List.mem_append] at hc
    rcases hc with hc | hc
    · have gen : ∀ ts : List (DirTick K), c ∈ POp.cells (ts.flatMap (dirTickOps i)) → c.2 = i := by
        intro ts
        induction ts with
        | nil => intro h; simp [POp.cells] at h
        | cons t ts ih =>
          intro h
          rw [List.flatMap_cons, cells_append, List.mem_append] at h
          rcases h with h | h
          · unfold dirTickOps at h
            simp only [POp.cells] at h
            by_cases hs : t.side = 1 ∨ t.side = -1
            · rw [if_pos hs] at h; exact dirExtremeOps_cells i c h
            · rw [if_neg hs] at h; simp [POp.cells] at h
          · exact ih h
      exact gen _ hc
    · simp only [dirFinalOps, dirStore, POp.cells, List.mem_cons, List.not_mem_nil, or_false] at hc
      rcases hc with h | h | h | h | h | h | h | h <;> rw [h]

/-- **C128.** Different iterations of the loop access different cells of the output arrays. -/
theorem C128_directional_disjoint (prices volumes : List K) (sides closes : List Int) : CellDisjoint (dirProg prices volumes sides closes) :=
  fun i j hij c h1 h2 => hij ((dirProg_cells prices volumes sides closes i c h1).symm.trans (dirProg_cells prices volumes sides closes j c h2))

/-- The scalars of the two states are the same. -/
def sameScalars (a b : DirAcc K) : Prop :=
  a.ticksBuy = b.ticksBuy ∧ a.ticksSell = b.ticksSell ∧ a.volBuy = b.volBuy ∧ a.volSell = b.volSell ∧ a.dolBuy = b.dolBuy ∧
  a.dolSell = b.dolSell ∧ a.cumTicks = b.cumTicks ∧ a.cumVol = b.cumVol ∧ a.cumDol = b.cumDol ∧ a.maxSpread = b.maxSpread ∧
  a.cumSpread = b.cumSpread ∧ a.prevSign = b.prevSign

/-- The cells of row `i` hold the extremes of the state. -/
def holdsExtremes (m : DirArr × Nat → DirVal K) (i : Nat) (b : DirAcc K) : Prop :=
  m (.cumTicksMin, i) = .int b.cumTicksMin ∧ m (.cumTicksMax, i) = .int b.cumTicksMax ∧ m (.cumVolMin, i) = .num b.cumVolMin ∧
  m (.cumVolMax, i) = .num b.cumVolMax ∧ m (.cumDolMin, i) = .num b.cumDolMin ∧ m (.cumDolMax, i) = .num b.cumDolMax

theorem dirSpread_same (a b : DirAcc K) (t : DirTick K) (h : sameScalars a b) :
    sameScalars (dirSpread a t) (dirSpread b t) ∧ (dirSpread b t).cumTicksMin = b.cumTicksMin ∧ (dirSpread b t).cumTicksMax = b.cumTicksMax ∧
    (dirSpread b t).cumVolMin = b.cumVolMin ∧ (dirSpread b t).cumVolMax = b.cumVolMax ∧ (dirSpread b t).cumDolMin = b.cumDolMin ∧
    (dirSpread b t).cumDolMax = b.cumDolMax := by
  obtain ⟨h1, h2, h3, h4, h5, h6, h7, h8, h9, h10, h11, h12⟩ := h
  unfold dirSpread sameScalars
  rw [h12]
  by_cases hp : t.side ≠ b.prevSign
  · simp only [if_pos hp, h1, h2, h3, h4, h5, h6, h7, h8, h9, h10, h11, and_self]
  · simp only [if_neg hp, h1, h2, h3, h4, h5, h6, h7, h8, h9, h10, h11, and_self]

theorem dirSums_same (a b : DirAcc K) (t : DirTick K) (h : sameScalars a b) :
    sameScalars (dirSums a t) (dirSums b t) ∧ (dirSums b t).cumTicksMin = b.cumTicksMin ∧ (dirSums b t).cumTicksMax = b.cumTicksMax ∧
    (dirSums b t).cumVolMin = b.cumVolMin ∧ (dirSums b t).cumVolMax = b.cumVolMax ∧ (dirSums b t).cumDolMin = b.cumDolMin ∧
    (dirSums b t).cumDolMax = b.cumDolMax := by
  obtain ⟨h, r1, r2, r3, r4, r5, r6⟩ := dirSpread_same a b t h
  have h' := h
  obtain ⟨h1, h2, h3, h4, h5, h6, h7, h8, h9, h10, h11, h12⟩ := h
  rw [← r1, ← r2, ← r3, ← r4, ← r5, ← r6]
  unfold dirSums
  by_cases hs : t.side = 1
  · simp only [if_pos hs]
    simp only [sameScalars, h1, h2, h3, h4, h5, h6, h7, h8, h9, h10, h11, h12, and_self]
  · by_cases hs' : t.side = -1
    · simp only [if_neg hs, if_pos hs']
      simp only [sameScalars, h1, h2, h3, h4, h5, h6, h7, h8, h9, h10, h11, h12, and_self]
    · simp only [if_neg hs, if_neg hs']
      simp only [h', and_self]

theorem runAlone_extremes (i : Nat) (l : DirRegs K) (m : DirArr × Nat → DirVal K) (b : DirAcc K) (hs : sameScalars l.acc b)
    (hm : holdsExtremes m i b) :
    sameScalars (runAlone (dirExtremeOps i) (l, m)).1.acc (dirExtremes b) ∧
    holdsExtremes (runAlone (dirExtremeOps i) (l, m)).2 i (dirExtremes b) := by
  obtain ⟨h1, h2, h3, h4, h5, h6⟩ := hm
  constructor
  · exact hs
  · obtain ⟨_, _, _, _, _, _, e7, e8, e9, _, _, _⟩ := hs
    unfold holdsExtremes dirExtremes
    simp [runAlone, dirExtremeOps, dirLoad, dirStore, POp.step, h1, h2, h3, h4, h5, h6, dirMaxInt, dirMinInt, dirMaxNum, dirMinNum, e7, e8, e9]

theorem runAlone_append {C L V : Type} [DecidableEq C] (p q : List (POp C L V)) (s : L × (C → V)) :
    runAlone (p ++ q) s = runAlone q (runAlone p s) := by
  unfold runAlone; rw [List.foldl_append]

theorem runAlone_ticks (i : Nat) (ts : List (DirTick K)) (l : DirRegs K) (m : DirArr × Nat → DirVal K) (b : DirAcc K)
    (hs : sameScalars l.acc b) (hm : holdsExtremes m i b) :
    sameScalars (runAlone (ts.flatMap (dirTickOps i)) (l, m)).1.acc (ts.foldl dirStep b) ∧
    holdsExtremes (runAlone (ts.flatMap (dirTickOps i)) (l, m)).2 i (ts.foldl dirStep b) := by
  induction ts generalizing l m b with
  | nil => exact ⟨hs, hm⟩
  | cons t ts ih =>
    rw [List.flatMap_cons, runAlone_append, List.foldl_cons]
    obtain ⟨q, e1, e2, e3, e4, e5, e6⟩ := dirSums_same l.acc b t hs
    have hm' : holdsExtremes m i (dirSums b t) := by unfold holdsExtremes; rw [e1, e2, e3, e4, e5, e6]; exact hm
    have hstep : ∃ l' m', runAlone (dirTickOps i t) (l, m) = (l', m') ∧ sameScalars l'.acc (dirStep b t) ∧ holdsExtremes m' i (dirStep b t) := by
      rw [dirStep_eq]
      unfold dirTickOps
      by_cases h : t.side = 1 ∨ t.side = -1
      · rw [if_pos h, if_pos h]
        obtain ⟨a1, a2⟩ := runAlone_extremes i { l with acc := dirSums l.acc t } m (dirSums b t) q hm'
        exact ⟨_, _, rfl, a1, a2⟩
      · rw [if_neg h, if_neg h]
        exact ⟨_, _, rfl, q, hm'⟩
    obtain ⟨l', m', e, a1, a2⟩ := hstep
    rw [e]
    exact ih l' m' (dirStep b t) a1 a2

theorem runAlone_final (i : Nat) (l : DirRegs K) (m : DirArr × Nat → DirVal K) (b : DirAcc K) (hs : sameScalars l.acc b)
    (hm : holdsExtremes m i b) :
    dirRow (runAlone (dirFinalOps i) (l, m)).2 i =
      [.int b.ticksBuy, .int b.ticksSell, .num b.volBuy, .num b.volSell, .num b.dolBuy, .num b.dolSell,
       (if b.ticksBuy + b.ticksSell = 0 then .undef else .num (b.cumSpread / ((b.ticksBuy + b.ticksSell : Int) : K))), .num b.maxSpread,
       .int b.cumTicksMin, .int b.cumTicksMax, .num b.cumVolMin, .num b.cumVolMax, .num b.cumDolMin, .num b.cumDolMax] := by
  obtain ⟨h1, h2, h3, h4, h5, h6⟩ := hm
  obtain ⟨e1, e2, e3, e4, e5, e6, _, _, _, e10, e11, _⟩ := hs
  simp [dirRow, runAlone, dirFinalOps, dirStore, POp.step, h1, h2, h3, h4, h5, h6, e1, e2, e3, e4, e5, e6, e10, e11]

/-- **C128.** `comp_bar_directional_features`: under every complete schedule of the single loads and stores of the parallel loop, row
`i` of the output arrays is the row of the sequential model. -/
theorem C128_directional (prices volumes : List K) (sides closes : List Int) (sched : List Nat)
    (hf : ∀ i < (closePairs closes).length, (dirProg prices volumes sides closes i).length ≤ sched.count i) (i : Nat) (b : DirBar K)
    (hb : (compBarDirectional prices volumes sides closes)[i]? = some b) :
    dirRow ((dirLoop prices volumes sides closes).run sched).mem i = dirBarRow b := by
  have hd := C128_directional_disjoint prices volumes sides closes
  unfold compBarDirectional at hb
  rw [List.getElem?_map, Option.map_eq_some_iff] at hb
  obtain ⟨c, hc, rfl⟩ := hb
  have hi : i < (closePairs closes).length := (List.getElem?_eq_some_iff.mp hc).1
  rw [C128_schedule_independent (dirLoop prices volumes sides closes) hd (closePairs closes).length
    (fun j hj => by show dirProg prices volumes sides closes j = []; unfold dirProg; rw [List.getElem?_eq_none hj]) sched hf]
  obtain ⟨q1, q2⟩ := seqLoop_cell (dirRegs0 sides closes) (dirProg prices volumes sides closes) hd dirMem0 (closePairs closes).length
  have hcell : ∀ a : DirArr, seqLoop (dirRegs0 sides closes) (dirProg prices volumes sides closes) dirMem0 (closePairs closes).length (a, i) =
      (runAlone (dirProg prices volumes sides closes i) (dirRegs0 sides closes i, dirMem0)).2 (a, i) := by
    intro a
    by_cases h : (a, i) ∈ POp.cells (dirProg prices volumes sides closes i)
    · exact q1 i hi (a, i) h
    · rw [runAlone_frame _ _ _ h, q2]
      intro j hj hcj
      have := dirProg_cells prices volumes sides closes j (a, i) hcj
      simp only at this
      subst this
      exact h hcj
  have hrow : dirRow (seqLoop (dirLoop prices volumes sides closes).regs (dirLoop prices volumes sides closes).prog
      (dirLoop prices volumes sides closes).mem (closePairs closes).length) i =
      dirRow (runAlone (dirProg prices volumes sides closes i) (dirRegs0 sides closes i, dirMem0)).2 i := by
    show dirRow (seqLoop (dirRegs0 sides closes) (dirProg prices volumes sides closes) dirMem0 (closePairs closes).length) i = _
    unfold dirRow
    simp only [hcell]
  rw [hrow]
  have hprog : dirProg prices volumes sides closes i = (dirBarTicks prices volumes sides c.1 c.2).flatMap (dirTickOps i) ++ dirFinalOps i := by
    unfold dirProg; rw [hc]
  have hregs : (dirRegs0 sides closes i : DirRegs K) = ⟨dirInit (if c.2 > c.1 + 1 then pyGet sides 0 (c.1 + 1 - 1) else 0), .undef⟩ := by
    unfold dirRegs0; rw [hc]
  rw [hprog, hregs, runAlone_append]
  obtain ⟨a1, a2⟩ := runAlone_ticks i (dirBarTicks prices volumes sides c.1 c.2)
    ⟨dirInit (if c.2 > c.1 + 1 then pyGet sides 0 (c.1 + 1 - 1) else 0), .undef⟩ dirMem0
    (dirInit (if c.2 > c.1 + 1 then pyGet sides 0 (c.1 + 1 - 1) else 0))
    ⟨rfl, rfl, rfl, rfl, rfl, rfl, rfl, rfl, rfl, rfl, rfl, rfl⟩ ⟨rfl, rfl, rfl, rfl, rfl, rfl⟩
  have := runAlone_final i _ _ _ a1 a2
  rw [Prod.mk.eta] at this
  rw [this]
  unfold dirBarRow dirBar dirBarTicks
  simp only
  split_ifs <;> rfl

/-- Two bars; the round-robin schedule, the sequential one and the reversed one give the same rows. -/
example :
    let prices : List ℚ := [10, 11, 10, 12]
    let s := dirLoop prices [1, 2, 3, 4] [1, -1, 1, 1] [0, 2, 3]
    let long := (dirProg prices [1, 2, 3, 4] [1, -1, 1, 1] [0, 2, 3] 0).length
    (long = 34) ∧
    dirRow (s.run (List.replicate 34 0 ++ List.replicate 21 1)).mem 0 = dirRow (s.run (List.replicate 21 1 ++ List.replicate 34 0)).mem 0 ∧
    dirRow (s.run ((List.range 68).map (· % 2))).mem 1 = dirRow (s.run (List.replicate 21 1 ++ List.replicate 34 0)).mem 1 := by
  intro prices s long
  exact ⟨by decide +kernel, by decide +kernel, by decide +kernel⟩

end FinML

import Verif.Model.Footprint
import Verif.Spec.Footprint
import Verif.Lemmas.Bars

set_option linter.unusedSectionVars false

namespace FinML

variable {K : Type} [Field K] [LinearOrder K]

theorem modify_add_getElem? {M : Type} [AddCommMonoid M] (l : List M) (i j : Nat) (a : M) :
    (l.modify i (· + a))[j]? = l[j]?.map (· + if i = j then a else 0) := by
  rw [List.getElem?_modify]
  by_cases h : i = j
  · simp [h]
  · simp [h]

/-- Effect of the aggregation loop on every level. -/
theorem levelLoop_spec (rnd : K → Int) (low : Int) (n : Nat) (ts : List (K × K × Int)) (st : Levels K)
    (hin : ∀ t ∈ ts, low ≤ rnd t.1 ∧ rnd t.1 < low + n) :
    ∃ st', levelLoop rnd low n st ts = .ok st' ∧
      (∀ l : Nat, st'.buyVol[l]? = st.buyVol[l]?.map (· + ((atLevel rnd 1 (low + l) ts).map (·.2.1)).sum)) ∧
      (∀ l : Nat, st'.sellVol[l]? = st.sellVol[l]?.map (· + ((atLevel rnd (-1) (low + l) ts).map (·.2.1)).sum)) ∧
      (∀ l : Nat, st'.buyTicks[l]? = st.buyTicks[l]?.map (· + ((atLevel rnd 1 (low + l) ts).length : Int))) ∧
      (∀ l : Nat, st'.sellTicks[l]? = st.sellTicks[l]?.map (· + ((atLevel rnd (-1) (low + l) ts).length : Int))) := by
  induction ts generalizing st with
  | nil =>
    refine ⟨st, rfl, ?_, ?_, ?_, ?_⟩ <;> intro l <;> simp [atLevel]
  | cons t ts ih =>
    obtain ⟨h1, h2⟩ := hin t (by simp)
    have hin' : ∀ t ∈ ts, low ≤ rnd t.1 ∧ rnd t.1 < low + n := fun t ht => hin t (by simp [ht])
    have hidx : 0 ≤ rnd t.1 - low ∧ rnd t.1 - low < n := by omega
    have hlev : ∀ l : Nat, ((rnd t.1 - low).toNat = l) = (rnd t.1 = low + l) := by
      intro l; rw [eq_iff_iff]; omega
    by_cases hb : t.2.2 = 1
    · have hstep : levelStep rnd low n st t = .ok { st with
          buyVol := st.buyVol.modify (rnd t.1 - low).toNat (· + t.2.1),
          buyTicks := st.buyTicks.modify (rnd t.1 - low).toNat (· + 1) } := by
        unfold levelStep; simp only [if_pos hidx, if_pos hb]
      obtain ⟨st', hl, a1, a2, a3, a4⟩ := ih { st with
          buyVol := st.buyVol.modify (rnd t.1 - low).toNat (· + t.2.1),
          buyTicks := st.buyTicks.modify (rnd t.1 - low).toNat (· + 1) } hin'
      refine ⟨st', ?_, ?_, ?_, ?_, ?_⟩
      · unfold levelLoop; rw [hstep]; exact hl
      · intro l
        rw [a1]; simp only [modify_add_getElem?, Option.map_map, hlev]
        congr 1; funext x
        by_cases he : rnd t.1 = low + l
        · simp [atLevel, hb, he, add_assoc]
        · simp [atLevel, hb, he]
      · intro l; rw [a2]; simp [atLevel, hb]
      · intro l
        rw [a3]; simp only [modify_add_getElem?, Option.map_map, hlev]
        congr 1; funext x
        by_cases he : rnd t.1 = low + l
        · simp [atLevel, hb, he]; ring
        · simp [atLevel, hb, he]
      · intro l; rw [a4]; simp [atLevel, hb]
    · by_cases hs : t.2.2 = -1
      · have hstep : levelStep rnd low n st t = .ok { st with
            sellVol := st.sellVol.modify (rnd t.1 - low).toNat (· + t.2.1),
            sellTicks := st.sellTicks.modify (rnd t.1 - low).toNat (· + 1) } := by
          unfold levelStep; simp only [if_pos hidx, if_neg hb, if_pos hs]
        obtain ⟨st', hl, a1, a2, a3, a4⟩ := ih { st with
            sellVol := st.sellVol.modify (rnd t.1 - low).toNat (· + t.2.1),
            sellTicks := st.sellTicks.modify (rnd t.1 - low).toNat (· + 1) } hin'
        refine ⟨st', ?_, ?_, ?_, ?_, ?_⟩
        · unfold levelLoop; rw [hstep]; exact hl
        · intro l; rw [a1]; simp [atLevel, hs]
        · intro l
          rw [a2]; simp only [modify_add_getElem?, Option.map_map, hlev]
          congr 1; funext x
          by_cases he : rnd t.1 = low + l
          · simp [atLevel, hs, he, add_assoc]
          · simp [atLevel, hs, he]
        · intro l; rw [a3]; simp [atLevel, hs]
        · intro l
          rw [a4]; simp only [modify_add_getElem?, Option.map_map, hlev]
          congr 1; funext x
          by_cases he : rnd t.1 = low + l
          · simp [atLevel, hs, he]; ring
          · simp [atLevel, hs, he]
      · have hstep : levelStep rnd low n st t = .ok st := by
          unfold levelStep; simp only [if_pos hidx, if_neg hb, if_neg hs]
        obtain ⟨st', hl, a1, a2, a3, a4⟩ := ih st hin'
        refine ⟨st', ?_, ?_, ?_, ?_, ?_⟩
        · unfold levelLoop; rw [hstep]; exact hl
        · intro l; rw [a1]; simp [atLevel, hb]
        · intro l; rw [a2]; simp [atLevel, hs]
        · intro l; rw [a3]; simp [atLevel, hb]
        · intro l; rw [a4]; simp [atLevel, hs]

/-- A list is determined by its entries being `f 0, …, f (n-1)`. -/
theorem eq_map_range {M : Type} (l : List M) (n : Nat) (f : Nat → M)
    (h : ∀ i : Nat, l[i]? = (List.replicate n ())[i]?.map (fun _ => f i)) : l = (List.range n).map f := by
  apply List.ext_getElem?
  intro i
  rw [h i]
  by_cases hi : i < n
  · simp [hi]
  · simp [hi]

/-- Summing a per-level total over all levels gives the total over all trades in range. -/
theorem sum_levels {M : Type} [AddCommMonoid M] (q : (K × K × Int) → M) (rnd : K → Int) (low : Int) (n : Nat)
    (s : Int) (ts : List (K × K × Int)) (hin : ∀ t ∈ ts, low ≤ rnd t.1 ∧ rnd t.1 < low + n) :
    ((List.range n).map (fun l : Nat => ((atLevel rnd s (low + l) ts).map q).sum)).sum =
      ((ts.filter (fun t => decide (t.2.2 = s))).map q).sum := by
  induction ts with
  | nil => simp [atLevel]
  | cons t ts ih =>
    have ih := ih (fun t ht => hin t (by simp [ht]))
    obtain ⟨h1, h2⟩ := hin t (by simp)
    have hsplit : ∀ l : Nat, ((atLevel rnd s (low + l) (t :: ts)).map q).sum =
        (if t.2.2 = s ∧ (rnd t.1 - low).toNat = l then q t else 0) + ((atLevel rnd s (low + l) ts).map q).sum := by
      intro l
      have : (t.2.2 = s ∧ (rnd t.1 - low).toNat = l) ↔ (t.2.2 = s ∧ rnd t.1 = low + l) := by
        constructor <;> rintro ⟨a, b⟩ <;> exact ⟨a, by omega⟩
      by_cases hc : t.2.2 = s ∧ rnd t.1 = low + l
      · rw [if_pos (this.mpr hc)]; simp [atLevel, hc]
      · rw [if_neg (fun h => hc (this.mp h))]; simp [atLevel, hc]
    simp only [hsplit]
    rw [List.sum_map_add, ih]
    have hone : ∀ (m k : Nat) (c : M), k < m →
        ((List.range m).map (fun l => if k = l then c else 0)).sum = c := by
      intro m k c hk
      induction m with
      | zero => omega
      | succ m ihm =>
        rw [List.range_succ, List.map_append, List.sum_append]
        by_cases h : k = m
        · subst h
          have : (List.range k).map (fun l => if k = l then c else 0) = (List.range k).map (fun _ => (0 : M)) := by
            apply List.map_congr_left
            intro l hl
            rw [List.mem_range] at hl
            rw [if_neg (by omega)]
          rw [this]; simp
        · rw [ihm (by omega)]; simp [h]
    by_cases hs : t.2.2 = s
    · simp only [hs, true_and, List.filter_cons, decide_true, if_true, List.map_cons, List.sum_cons]
      rw [hone n _ _ (by omega)]
    · simp only [hs, false_and, if_false, List.filter_cons, decide_false]
      simp

/-! ## Run scan -/

structure RunInv (pre : List Int) (s : RunState) : Prop where
  /-- current run: the maximal constant non-zero suffix -/
  cur0 : s.run = 0 → s.runSign = 0
  cur : 0 < s.run → SignRun pre (pre.length - s.run) s.run s.runSign
  suffix_le : ∀ len sg, SignRun pre (pre.length - len) len sg → len ≤ s.run ∧ sg = s.runSign
  max_le : ∀ i len sg, SignRun pre i len sg → len ≤ s.maxRun
  max0 : s.maxRun = 0 → s.maxSign = 0
  wit : 0 < s.maxRun → ∃ i, SignRun pre i s.maxRun s.maxSign ∧
    ∀ j sg, SignRun pre j s.maxRun sg → i ≤ j

theorem SignRun.snoc_cases {pre : List Int} {x : Int} {i len : Nat} {sg : Int}
    (h : SignRun (pre ++ [x]) i len sg) :
    SignRun pre i len sg ∨
    (i + len = pre.length + 1 ∧ x = sg ∧ (len = 1 ∨ SignRun pre i (len - 1) sg)) := by
  by_cases he : i + len ≤ pre.length
  · left
    refine ⟨h.sign, h.pos, he, ?_⟩
    intro k h1 h2
    have := h.const k h1 h2
    rwa [List.getElem?_append_left (by omega)] at this
  · right
    have hi := h.inside
    rw [List.length_append, List.length_singleton] at hi
    have hx := h.const pre.length (by have := h.pos; omega) (by omega)
    rw [List.getElem?_append_right (by omega)] at hx
    simp at hx
    refine ⟨by omega, hx, ?_⟩
    by_cases hl : len = 1
    · exact Or.inl hl
    · right
      refine ⟨h.sign, by have := h.pos; omega, by have := h.pos; omega, ?_⟩
      intro k h1 h2
      have := h.const k h1 (by omega)
      rwa [List.getElem?_append_left (by omega)] at this

theorem SignRun.extend {pre : List Int} {x : Int} {i len : Nat} {sg : Int} (h : SignRun pre i len sg) :
    SignRun (pre ++ [x]) i len sg := by
  refine ⟨h.sign, h.pos, by have := h.inside; simp; omega, ?_⟩
  intro k h1 h2
  have := h.inside
  rw [List.getElem?_append_left (by omega)]
  exact h.const k h1 h2

theorem SignRun.snoc {pre : List Int} {i len : Nat} {sg : Int} (h : SignRun pre i len sg)
    (hend : i + len = pre.length) : SignRun (pre ++ [sg]) i (len + 1) sg := by
  refine ⟨h.sign, by omega, by simp; omega, ?_⟩
  intro k h1 h2
  by_cases hk : k < pre.length
  · rw [List.getElem?_append_left hk]; exact h.const k h1 (by omega)
  · have : k = pre.length := by omega
    subst this; simp

theorem SignRun.last {pre : List Int} {sg : Int} (h : sg ≠ 0) : SignRun (pre ++ [sg]) pre.length 1 sg := by
  refine ⟨h, by omega, by simp, ?_⟩
  intro k h1 h2
  have : k = pre.length := by omega
  subst this; simp

/-- The state before the maximum is updated. -/
def runCur (s : RunState) (sign : Int) : RunState :=
  if sign ≠ 0 ∧ sign = s.runSign then { s with run := s.run + 1 }
  else if sign ≠ 0 then { s with run := 1, runSign := sign }
  else { s with run := 0, runSign := 0 }

theorem runInv_step (pre : List Int) (x : Int) (s : RunState) (h : RunInv pre s) :
    RunInv (pre ++ [x]) (runStep s x) := by
  have hmaxeq : (runCur s x).maxRun = s.maxRun ∧ (runCur s x).maxSign = s.maxSign := by
    unfold runCur; split_ifs <;> exact ⟨rfl, rfl⟩
  -- facts about the current run
  have key : ((runCur s x).run = 0 → (runCur s x).runSign = 0) ∧
      (0 < (runCur s x).run → SignRun (pre ++ [x]) (pre.length + 1 - (runCur s x).run) (runCur s x).run (runCur s x).runSign) ∧
      (∀ i len sg, SignRun (pre ++ [x]) i len sg → i + len = pre.length + 1 →
        len ≤ (runCur s x).run ∧ sg = (runCur s x).runSign) := by
    unfold runCur
    by_cases hx : x = 0
    · subst hx
      simp only [ne_eq, not_true_eq_false, false_and, if_false]
      refine ⟨fun _ => trivial, fun h => absurd h (by decide), ?_⟩
      intro i len sg hr he
      rcases hr.snoc_cases with h' | ⟨_, h', _⟩
      · have := h'.inside; omega
      · exact absurd h'.symm hr.sign
    · by_cases hsame : x = s.runSign
      · rw [if_pos ⟨hx, hsame⟩]
        have hrun : 0 < s.run := by
          rcases Nat.eq_zero_or_pos s.run with h0 | h0
          · exact absurd (hsame.trans (h.cur0 h0)) hx
          · exact h0
        have hc := h.cur hrun
        have hin := hc.inside
        refine ⟨fun h0 => absurd h0 (by simp), fun _ => ?_, ?_⟩
        · rw [hsame]
          have := hc.snoc (by omega)
          convert this using 1
          simp only; omega
        · intro i len sg hr he
          rcases hr.snoc_cases with h' | ⟨_, h', h''⟩
          · have := h'.inside; omega
          · rcases h'' with h'' | h''
            · subst h''; exact ⟨by simp, by rw [← h', hsame]⟩
            · have := h.suffix_le (len - 1) sg (by
                have : pre.length - (len - 1) = i := by have := hr.pos; omega
                rw [this]; exact h'')
              exact ⟨by simp only; omega, this.2⟩
      · rw [if_neg (fun h => hsame h.2), if_pos hx]
        refine ⟨fun h0 => absurd h0 (by simp), fun _ => ?_, ?_⟩
        · simpa using SignRun.last (pre := pre) hx
        · intro i len sg hr he
          rcases hr.snoc_cases with h' | ⟨_, h', h''⟩
          · have := h'.inside; omega
          · rcases h'' with h'' | h''
            · subst h''; exact ⟨by simp, h'.symm⟩
            · have := h.suffix_le (len - 1) sg (by
                have : pre.length - (len - 1) = i := by have := hr.pos; omega
                rw [this]; exact h'')
              exact absurd (h'.trans this.2) hsame
  obtain ⟨k1, k2, k3⟩ := key
  have hstep : runStep s x = if (runCur s x).run > (runCur s x).maxRun then
      { runCur s x with maxRun := (runCur s x).run, maxSign := (runCur s x).runSign } else runCur s x := rfl
  have hlen : (pre ++ [x]).length = pre.length + 1 := by simp
  have hsuf : ∀ len sg, SignRun (pre ++ [x]) ((pre ++ [x]).length - len) len sg →
      len ≤ (runCur s x).run ∧ sg = (runCur s x).runSign := by
    intro len sg hr
    have := hr.inside
    exact k3 _ len sg hr (by omega)
  rw [hstep]
  by_cases hgt : (runCur s x).run > (runCur s x).maxRun
  · rw [if_pos hgt]
    have hpos : 0 < (runCur s x).run := by omega
    refine ⟨k1, fun h0 => by rw [hlen]; exact k2 h0, hsuf, ?_, fun h0 => by simp only at h0; omega, fun _ => ?_⟩
    · intro i len sg hr
      rcases hr.snoc_cases with h' | ⟨h', _, _⟩
      · have := h.max_le i len sg h'
        simp only; omega
      · exact (k3 i len sg hr h').1
    · refine ⟨_, k2 hpos, ?_⟩
      intro j sg hr
      simp only at hr
      rcases hr.snoc_cases with h' | ⟨h', _, _⟩
      · have := h.max_le j _ sg h'
        omega
      · omega
  · rw [if_neg hgt]
    refine ⟨k1, fun h0 => by rw [hlen]; exact k2 h0, hsuf, ?_, ?_, ?_⟩
    · intro i len sg hr
      rcases hr.snoc_cases with h' | ⟨h', _, _⟩
      · have := h.max_le i len sg h'
        omega
      · have := (k3 i len sg hr h').1
        omega
    · intro h0; rw [hmaxeq.2]; exact h.max0 (by omega)
    · intro h0
      rw [hmaxeq.1, hmaxeq.2]
      rw [hmaxeq.1] at h0
      obtain ⟨i, hi, hmin⟩ := h.wit h0
      refine ⟨i, hi.extend, ?_⟩
      intro j sg hr
      rcases hr.snoc_cases with h' | ⟨h', _, _⟩
      · exact hmin j sg h'
      · have := hi.inside; omega

theorem runInv_fold (pre l : List Int) (s : RunState) (h : RunInv pre s) :
    RunInv (pre ++ l) (l.foldl runStep s) := by
  induction l generalizing pre s with
  | nil => simpa using h
  | cons x l ih =>
    have := ih (pre ++ [x]) (runStep s x) (runInv_step pre x s h)
    simpa using this

theorem runInv_nil : RunInv [] ⟨0, 0, 0, 0⟩ := by
  refine ⟨fun _ => rfl, fun h => absurd h (by decide), ?_, ?_, fun _ => rfl, fun h => absurd h (by decide)⟩
  · intro len sg h
    have h1 := h.inside; have h2 := h.pos
    simp at h1; omega
  · intro i len sg h
    have h1 := h.inside; have h2 := h.pos
    simp at h1; omega

/-! ## argmax -/

theorem argmaxLoop_spec (xs pre : List K) (best : K) (bi : Nat) (hb : pre[bi]? = some best)
    (hmax : ∀ (j : Nat) (x : K), pre[j]? = some x → x ≤ best)
    (hfirst : ∀ (j : Nat) (x : K), j < bi → pre[j]? = some x → x < best) :
    ∃ b, (pre ++ xs)[argmaxLoop best bi pre.length xs]? = some b ∧
      (∀ (j : Nat) (x : K), (pre ++ xs)[j]? = some x → x ≤ b) ∧
      (∀ (j : Nat) (x : K), j < argmaxLoop best bi pre.length xs → (pre ++ xs)[j]? = some x → x < b) := by
  induction xs generalizing pre best bi with
  | nil => exact ⟨best, by simpa [argmaxLoop] using hb, by simpa using hmax, by simpa [argmaxLoop] using hfirst⟩
  | cons y ys ih =>
    have hbi : bi < pre.length := (List.getElem?_eq_some_iff.mp hb).1
    have hsn : ∀ (j : Nat) (x : K), (pre ++ [y])[j]? = some x → pre[j]? = some x ∨ (j = pre.length ∧ x = y) := by
      intro j x h
      by_cases hj : j < pre.length
      · rw [List.getElem?_append_left hj] at h; exact Or.inl h
      · have hj' := (List.getElem?_eq_some_iff.mp h).1
        simp at hj'
        have : j = pre.length := by omega
        subst this; simp at h; exact Or.inr ⟨rfl, h.symm⟩
    unfold argmaxLoop
    by_cases hlt : best < y
    · rw [if_pos hlt]
      have := ih (pre ++ [y]) y pre.length (by simp) (by
          intro j x h
          rcases hsn j x h with h | ⟨_, rfl⟩
          · exact le_of_lt (lt_of_le_of_lt (hmax j x h) hlt)
          · exact le_refl _) (by
          intro j x hj h
          rw [List.getElem?_append_left hj] at h
          exact lt_of_le_of_lt (hmax j x h) hlt)
      simpa using this
    · rw [if_neg hlt]
      have := ih (pre ++ [y]) best bi (by rw [List.getElem?_append_left hbi]; exact hb) (by
          intro j x h
          rcases hsn j x h with h | ⟨_, rfl⟩
          · exact hmax j x h
          · exact not_lt.mp hlt) (by
          intro j x hj h
          rw [List.getElem?_append_left (by omega)] at h
          exact hfirst j x hj h)
      simpa using this

theorem argmax_spec (l : List K) (hne : l ≠ []) :
    ∃ b, l[argmax l]? = some b ∧ (∀ (j : Nat) (x : K), l[j]? = some x → x ≤ b) ∧
      (∀ (j : Nat) (x : K), j < argmax l → l[j]? = some x → x < b) := by
  cases l with
  | nil => exact absurd rfl hne
  | cons y ys =>
    have := argmaxLoop_spec ys [y] y 0 rfl (by
      intro j x h
      have := (List.getElem?_eq_some_iff.mp h).1
      simp at this; subst this; simp at h; rw [h]) (by intro j x hj; omega)
    simpa [argmax] using this

end FinML

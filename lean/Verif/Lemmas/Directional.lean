import Verif.Model.Bars
import Verif.Spec.Directional
import Verif.Lemmas.Bars

set_option linter.unusedSectionVars false

namespace FinML

variable {K : Type} [Field K] [LinearOrder K]

/-- Forget the previous price. -/
def DirTick.sided (t : DirTick K) : SidedTrade K := ⟨t.side, t.price, t.vol⟩

theorem foldl_max_ge {M : Type} [LinearOrder M] (l : List M) (a : M) :
    a ≤ l.foldl max a ∧ (∀ x ∈ l, x ≤ l.foldl max a) ∧ (l.foldl max a = a ∨ l.foldl max a ∈ l) := by
  induction l generalizing a with
  | nil => simp
  | cons b l ih =>
    obtain ⟨h1, h2, h3⟩ := ih (max a b)
    simp only [List.foldl_cons]
    refine ⟨le_trans (le_max_left _ _) h1, ?_, ?_⟩
    · intro x hx
      rcases List.mem_cons.mp hx with rfl | hx
      · exact le_trans (le_max_right _ _) h1
      · exact h2 x hx
    · rcases h3 with h | h
      · rcases max_choice a b with h' | h'
        · left; rw [h, h']
        · right; rw [h, h']; simp
      · right; simp [h]

theorem foldl_min_le {M : Type} [LinearOrder M] (l : List M) (a : M) :
    l.foldl min a ≤ a ∧ (∀ x ∈ l, l.foldl min a ≤ x) ∧ (l.foldl min a = a ∨ l.foldl min a ∈ l) := by
  induction l generalizing a with
  | nil => simp
  | cons b l ih =>
    obtain ⟨h1, h2, h3⟩ := ih (min a b)
    simp only [List.foldl_cons]
    refine ⟨le_trans h1 (min_le_left _ _), ?_, ?_⟩
    · intro x hx
      rcases List.mem_cons.mp hx with rfl | hx
      · exact le_trans h1 (min_le_right _ _)
      · exact h2 x hx
    · rcases h3 with h | h
      · rcases min_choice a b with h' | h'
        · left; rw [h, h']
        · right; rw [h, h']; simp
      · right; simp [h]

theorem dirSpread_fields (s : DirAcc K) (t : DirTick K) :
    (dirSpread s t).ticksBuy = s.ticksBuy ∧ (dirSpread s t).ticksSell = s.ticksSell ∧
    (dirSpread s t).volBuy = s.volBuy ∧ (dirSpread s t).volSell = s.volSell ∧
    (dirSpread s t).dolBuy = s.dolBuy ∧ (dirSpread s t).dolSell = s.dolSell ∧
    (dirSpread s t).cumTicks = s.cumTicks ∧ (dirSpread s t).cumVol = s.cumVol ∧
    (dirSpread s t).cumDol = s.cumDol ∧
    (dirSpread s t).cumTicksMin = s.cumTicksMin ∧ (dirSpread s t).cumTicksMax = s.cumTicksMax ∧
    (dirSpread s t).cumVolMin = s.cumVolMin ∧ (dirSpread s t).cumVolMax = s.cumVolMax ∧
    (dirSpread s t).cumDolMin = s.cumDolMin ∧ (dirSpread s t).cumDolMax = s.cumDolMax := by
  unfold dirSpread; split <;> simp

/-- The part of the state that does not involve spreads. -/
theorem dir_fold (l : List (DirTick K)) (s : DirAcc K) :
    let r := l.foldl dirStep s
    let b := l.map DirTick.sided
    r.ticksBuy = s.ticksBuy + (ofSide 1 b).length ∧ r.ticksSell = s.ticksSell + (ofSide (-1) b).length ∧
    r.volBuy = s.volBuy + ((ofSide 1 b).map (·.vol)).sum ∧
    r.volSell = s.volSell + ((ofSide (-1) b).map (·.vol)).sum ∧
    r.dolBuy = s.dolBuy + ((ofSide 1 b).map (fun t => t.price * t.vol)).sum ∧
    r.dolSell = s.dolSell + ((ofSide (-1) b).map (fun t => t.price * t.vol)).sum ∧
    r.cumTicksMin = (prefixSums s.cumTicks (signedValues (fun _ => (1 : Int)) b)).foldl min s.cumTicksMin ∧
    r.cumTicksMax = (prefixSums s.cumTicks (signedValues (fun _ => (1 : Int)) b)).foldl max s.cumTicksMax ∧
    r.cumVolMin = (prefixSums s.cumVol (signedValues (·.vol) b)).foldl min s.cumVolMin ∧
    r.cumVolMax = (prefixSums s.cumVol (signedValues (·.vol) b)).foldl max s.cumVolMax ∧
    r.cumDolMin = (prefixSums s.cumDol (signedValues (fun t => t.price * t.vol) b)).foldl min s.cumDolMin ∧
    r.cumDolMax = (prefixSums s.cumDol (signedValues (fun t => t.price * t.vol) b)).foldl max s.cumDolMax := by
  induction l generalizing s with
  | nil => simp [ofSide, signedValues, prefixSums]
  | cons t l ih =>
    obtain ⟨a1, a2, a3, a4, a5, a6, a7, a8, a9, a10, a11, a12⟩ := ih (dirStep s t)
    obtain ⟨f1, f2, f3, f4, f5, f6, f7, f8, f9, f10, f11, f12, f13, f14, f15⟩ := dirSpread_fields s t
    simp only [List.foldl_cons, List.map_cons]
    rw [a1, a2, a3, a4, a5, a6, a7, a8, a9, a10, a11, a12]
    by_cases h1 : t.side = 1
    · have hs : t.sided.side = 1 := h1
      have e1 : ofSide 1 (t.sided :: l.map DirTick.sided) = t.sided :: ofSide 1 (l.map DirTick.sided) := by
        simp [ofSide, hs]
      have e2 : ofSide (-1) (t.sided :: l.map DirTick.sided) = ofSide (-1) (l.map DirTick.sided) := by
        simp [ofSide, hs]
      have e3 : ∀ {M : Type} [Neg M] (q : SidedTrade K → M),
          signedValues q (t.sided :: l.map DirTick.sided) = q t.sided :: signedValues q (l.map DirTick.sided) := by
        intro M _ q; simp [signedValues, hs]
      simp only [e1, e2, e3, prefixSums, List.foldl_cons, List.map_cons, List.sum_cons, List.length_cons]
      simp only [dirStep, h1, if_true, dirExtremes, f1, f2, f3, f4, f5, f6, f7, f8, f9, f10, f11, f12,
        f13, f14, f15, DirTick.sided]
      push_cast
      refine ⟨?_, ?_, ?_, ?_, ?_, ?_, ?_, ?_, ?_, ?_, ?_, ?_⟩ <;> first | trivial | rfl | ring
    · by_cases h2 : t.side = -1
      · have hs : t.sided.side = -1 := h2
        have e1 : ofSide 1 (t.sided :: l.map DirTick.sided) = ofSide 1 (l.map DirTick.sided) := by
          simp [ofSide, hs]
        have e2 : ofSide (-1) (t.sided :: l.map DirTick.sided) = t.sided :: ofSide (-1) (l.map DirTick.sided) := by
          simp [ofSide, hs]
        have e3 : ∀ {M : Type} [Neg M] (q : SidedTrade K → M),
            signedValues q (t.sided :: l.map DirTick.sided) = -(q t.sided) :: signedValues q (l.map DirTick.sided) := by
          intro M _ q; simp [signedValues, hs]
        simp only [e1, e2, e3, prefixSums, List.foldl_cons, List.map_cons, List.sum_cons, List.length_cons]
        have hne : ¬ ((-1 : Int) = 1) := by decide
        simp only [dirStep, h2, if_true, if_neg hne, dirExtremes, f1, f2, f3, f4, f5, f6, f7, f8, f9, f10, f11, f12,
          f13, f14, f15, DirTick.sided]
        push_cast
        refine ⟨?_, ?_, ?_, ?_, ?_, ?_, ?_, ?_, ?_, ?_, ?_, ?_⟩ <;>
          first | trivial | rfl | (simp only [sub_eq_add_neg]; done) | ring
      · have e1 : ofSide 1 (t.sided :: l.map DirTick.sided) = ofSide 1 (l.map DirTick.sided) := by
          simp [ofSide, DirTick.sided, h1]
        have e2 : ofSide (-1) (t.sided :: l.map DirTick.sided) = ofSide (-1) (l.map DirTick.sided) := by
          simp [ofSide, DirTick.sided, h2]
        have e3 : ∀ {M : Type} [Neg M] (q : SidedTrade K → M),
            signedValues q (t.sided :: l.map DirTick.sided) = signedValues q (l.map DirTick.sided) := by
          intro M _ q; simp [signedValues, DirTick.sided, h1, h2]
        simp only [e1, e2, e3]
        simp only [dirStep, h1, h2, if_false, f1, f2, f3, f4, f5, f6, f7, f8, f9, f10, f11, f12,
          f13, f14, f15]
        simp

/-- The spread part of the state, when each trade's `prevPrice` is the price of the trade before it. -/
theorem dir_fold_spread [IsStrictOrderedRing K] (l : List (DirTick K)) (s : DirAcc K) (pp : K)
    (hchain : ∀ (i : Nat) (h : i < l.length), l[i].prevPrice = if i = 0 then pp else l[i - 1].price) :
    let r := l.foldl dirStep s
    let m := switchMoves s.prevSign pp (l.map DirTick.sided)
    r.maxSpread = m.foldl max s.maxSpread ∧ r.cumSpread = s.cumSpread + m.sum := by
  induction l generalizing s pp with
  | nil => simp [switchMoves]
  | cons t l ih =>
    have h0 : t.prevPrice = pp := by
      have := hchain 0 (Nat.succ_pos _)
      simpa only [List.getElem_cons_zero, if_true] using this
    have htail : ∀ (i : Nat) (h : i < l.length), l[i].prevPrice = if i = 0 then t.price else l[i - 1].price := by
      intro i h
      have := hchain (i + 1) (by simpa using h)
      cases i with
      | zero => simpa using this
      | succ i => simpa using this
    obtain ⟨a1, a2⟩ := ih (dirStep s t) t.price htail
    have g1 : (dirStep s t).maxSpread = (dirSpread s t).maxSpread := by
      unfold dirStep; simp only; split_ifs <;> simp [dirExtremes]
    have g2 : (dirStep s t).cumSpread = (dirSpread s t).cumSpread := by
      unfold dirStep; simp only; split_ifs <;> simp [dirExtremes]
    have g3 : (dirStep s t).prevSign = t.side := by
      unfold dirStep; simp only; split_ifs <;> simp [dirExtremes, dirSpread] <;> split_ifs <;> rfl
    simp only [List.foldl_cons, List.map_cons, switchMoves]
    rw [a1, a2, g1, g2, g3]
    have hside : t.sided.side = t.side := rfl
    have hprice : t.sided.price = t.price := rfl
    rw [hside, hprice]
    by_cases h : t.side ≠ s.prevSign
    · rw [if_pos h]
      unfold dirSpread
      rw [if_pos h]
      simp only [List.foldl_cons, List.sum_cons, h0]
      refine ⟨?_, by ring⟩
      congr 1
      split
      · rename_i h'; rw [max_eq_right (le_of_lt h')]
      · rename_i h'; rw [max_eq_left (not_lt.mp h')]
    · rw [if_neg h]
      unfold dirSpread
      rw [if_neg h]
      exact ⟨rfl, rfl⟩

end FinML

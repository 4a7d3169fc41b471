/-
C161 (barriers further away).  `finmlkit/label/tbm.py:triple_barrier`.
-/
import Verif.Props.TripleBarrier

set_option linter.unusedSectionVars false

namespace FinML

variable {K : Type} [Field K] [LinearOrder K] [IsStrictOrderedRing K]

/-! ## Specification -/

/-- Every return beyond a barrier of the second setting is beyond the same barrier of the first. -/
structure Wider (p : TbmParams K) (tgt : K) (p' : TbmParams K) (tgt' : K) : Prop where
  upper : ∀ r, UpperHit p'.top tgt' r → UpperHit p.top tgt r
  lower : ∀ r, LowerHit p'.bottom tgt' r → LowerHit p.bottom tgt r

/-- The vertical barrier of the second setting is not nearer. -/
def LaterEnd : Option Int → Option Int → Prop
  | _, none => True
  | none, some _ => False
  | some v, some v' => v ≤ v'

/-- Larger multipliers of a larger target are wider. -/
theorem wider_of_le (p p' : TbmParams K) (tgt tgt' t t' b b' : K) (h1 : p.top = .fin t) (h1' : p'.top = .fin t')
    (h2 : p.bottom = .fin b) (h2' : p'.bottom = .fin b') (ht0 : 0 ≤ t) (hb0 : 0 ≤ b) (ht : t ≤ t') (hb : b ≤ b')
    (h0 : 0 ≤ tgt) (hle : tgt ≤ tgt') : Wider p tgt p' tgt' := by
  have e1 : tgt * t ≤ tgt' * t' := mul_le_mul hle ht ht0 (le_trans h0 hle)
  have e2 : tgt * b ≤ tgt' * b' := mul_le_mul hle hb hb0 (le_trans h0 hle)
  constructor
  · intro r hr; rw [h1'] at hr; rw [h1]; exact le_trans e1 hr
  · intro r hr; rw [h2'] at hr; rw [h2]; exact le_trans hr (neg_le_neg e2)

/-- Switching a barrier off (`+inf`) is wider. -/
theorem wider_of_off (p p' : TbmParams K) (tgt : K) (h0 : 0 ≤ tgt) (h1 : p'.top = p.top ∨ p'.top = .pinf)
    (h2 : p'.bottom = p.bottom ∨ p'.bottom = .pinf) : Wider p tgt p' tgt := by
  constructor
  · intro r hr
    rcases h1 with h | h
    · rw [h] at hr; exact hr
    · rw [h] at hr; exact absurd hr (not_lt.mpr h0)
  · intro r hr
    rcases h2 with h | h
    · rw [h] at hr; exact hr
    · rw [h] at hr; exact absurd hr (not_lt.mpr h0)

/-! ## Lemmas -/

theorem verticalBar_unique (ts : List Int) (i0 : Nat) (v : Option Int) (t t' : Nat) (h : IsVerticalBar ts i0 v t)
    (h' : IsVerticalBar ts i0 v t') : t = t' := by
  have a := (h.2.2 t' h'.2.1).mpr ((h'.2.2 t' h'.2.1).mp (le_refl _))
  have b := (h'.2.2 t h.2.1).mpr ((h.2.2 t h.2.1).mp (le_refl _))
  omega

theorem verticalBar_le (ts : List Int) (i0 : Nat) (v v' : Option Int) (hv : LaterEnd v v') (t t' : Nat)
    (h : IsVerticalBar ts i0 v t) (h' : IsVerticalBar ts i0 v' t') : t ≤ t' := by
  refine (h'.2.2 t h.2.1).mpr ?_
  have := (h.2.2 t h.2.1).mp (le_refl _)
  cases v' with
  | none => trivial
  | some w =>
    cases v with
    | none => exact absurd hv id
    | some u =>
      simp only at this ⊢
      have : u ≤ w := hv
      omega

/-- C24 for a given bar of the vertical barrier. -/
theorem tbmEvent_at (p : TbmParams K) {ts : List Int} (hs : ts.Pairwise (· ≤ ·)) (logc : List K)
    (isMeta : Bool) {i0 : Nat} (hi : i0 < ts.length) (tgt : K) (side : Int) (hv : ∀ x, p.vertical = some x → 0 < x)
    (t1 : Nat) (hvb : IsVerticalBar ts i0 p.vertical t1) (h01 : i0 < t1) :
    ∃ touch r ratio, tbmEvent p ts logc isMeta i0 tgt side =
          ⟨if isMeta then (if p.minRet ≤ r then 1 else 0) else (if 0 ≤ r then 1 else -1), some touch, some r, ratio⟩ ∧
        (FirstTouch p ts logc i0 t1 tgt side touch r ∨
          NoTouch p ts logc i0 t1 tgt side ∧ touch = t1 ∧
            r = if Closable ts i0 t1 p.minClose t1 then pathReturn logc i0 side t1 else 0) := by
  obtain ⟨t1', hvb', -, h2⟩ := C24_first_touch_partial p hs logc isMeta hi tgt side hv
  obtain rfl := verticalBar_unique ts i0 p.vertical t1' t1 hvb' hvb
  exact h2 h01

theorem firstTouch_unique (p : TbmParams K) (ts : List Int) (logc : List K) (i0 t1 : Nat) (tgt : K) (side : Int)
    (x x' : Nat) (r r' : K) (h : FirstTouch p ts logc i0 t1 tgt side x r)
    (h' : FirstTouch p ts logc i0 t1 tgt side x' r') : x = x' ∧ r = r' := by
  obtain ⟨a1, a2, a3, a4⟩ := h
  obtain ⟨b1, b2, b3, b4⟩ := h'
  have : x = x' := by
    rcases lt_trichotomy x x' with hl | he | hl
    · exact absurd (a2 ▸ a3) (b4 x a1 hl)
    · exact he
    · exact absurd (b2 ▸ b3) (a4 x' b1 hl)
  subst this
  exact ⟨rfl, a2.trans b2.symm⟩

/-! ## C161 -/

/-- **C161.** Moving horizontal barriers outward, the vertical barrier later or the minimum holding time up never makes an
event end earlier; and if the vertical barrier stays, the same events are skipped. -/
theorem C161_touch_later (p p' : TbmParams K) {ts : List Int} (hs : ts.Pairwise (· ≤ ·)) (logc : List K)
    (isMeta isMeta' : Bool) {i0 : Nat} (hi : i0 < ts.length) (tgt tgt' : K) (side : Int)
    (hv : ∀ x, p.vertical = some x → 0 < x) (hv' : ∀ x, p'.vertical = some x → 0 < x)
    (hw : Wider p tgt p' tgt') (hl : LaterEnd p.vertical p'.vertical) (hm : p.minClose ≤ p'.minClose) :
    (∀ x x', (tbmEvent p ts logc isMeta i0 tgt side).touch = some x →
      (tbmEvent p' ts logc isMeta' i0 tgt' side).touch = some x' → x ≤ x') ∧
    ((tbmEvent p' ts logc isMeta' i0 tgt' side).touch = none → (tbmEvent p ts logc isMeta i0 tgt side).touch = none) ∧
    (p.vertical = p'.vertical → ((tbmEvent p ts logc isMeta i0 tgt side).touch = none ↔
      (tbmEvent p' ts logc isMeta' i0 tgt' side).touch = none)) := by
  obtain ⟨t1, hvb, hskip, -⟩ := C24_first_touch_partial p hs logc isMeta hi tgt side hv
  obtain ⟨t1', hvb', hskip', -⟩ := C24_first_touch_partial p' hs logc isMeta' hi tgt' side hv'
  have hle := verticalBar_le ts i0 _ _ hl t1 t1' hvb hvb'
  have hnone : ∀ (q : TbmParams K) (mm : Bool) (g : K) (t : Nat), (∀ x, q.vertical = some x → 0 < x) →
      IsVerticalBar ts i0 q.vertical t → i0 < t → (tbmEvent q ts logc mm i0 g side).touch ≠ none := by
    intro q mm g t hq hb h0
    obtain ⟨x, r, ra, e, -⟩ := tbmEvent_at q hs logc mm hi g side hq t hb h0
    rw [e]; simp
  refine ⟨?_, ?_, ?_⟩
  · intro x x' hx hx'
    have h0 : i0 < t1 := by
      by_contra hc
      rw [hskip (by have := hvb.1; omega)] at hx
      cases hx
    obtain ⟨y, r, ra, e, hc⟩ := tbmEvent_at p hs logc isMeta hi tgt side hv t1 hvb h0
    obtain ⟨y', r', ra', e', hc'⟩ := tbmEvent_at p' hs logc isMeta' hi tgt' side hv' t1' hvb' (by omega)
    rw [e] at hx
    rw [e'] at hx'
    simp only [Option.some.injEq] at hx hx'
    subst hx hx'
    rcases hc' with ⟨b1, b2, b3, -⟩ | ⟨-, rfl, -⟩
    · by_contra hlt
      have hlt : y' < y := by omega
      have hy : y ≤ t1 := by
        rcases hc with ⟨a1, -⟩ | ⟨-, a2, -⟩
        · exact a1.2.1
        · omega
      have hcl : Closable ts i0 t1 p.minClose y' := ⟨b1.1, by omega, le_trans hm b1.2.2⟩
      have hhit : UpperHit p.top tgt (pathReturn logc i0 side y') ∨ LowerHit p.bottom tgt (pathReturn logc i0 side y') := by
        rw [← b2]; exact b3.imp (hw.upper _) (hw.lower _)
      rcases hc with ⟨-, -, -, a4⟩ | ⟨a1, -, -⟩
      · exact a4 y' hcl hlt hhit
      · exact a1 y' hcl hhit
    · rcases hc with ⟨a1, -⟩ | ⟨-, rfl, -⟩
      · exact le_trans a1.2.1 hle
      · exact hle
  · intro hn
    by_cases h0 : i0 < t1
    · exact absurd hn (hnone p' isMeta' tgt' t1' hv' hvb' (by omega))
    · rw [hskip (by have := hvb.1; omega)]
  · intro he
    rw [← he] at hvb'
    obtain rfl := verticalBar_unique ts i0 _ t1 t1' hvb hvb'
    by_cases h0 : i0 < t1
    · have h1 := hnone p isMeta tgt t1 hv hvb h0
      have h2 := hnone p' isMeta' tgt' t1 hv' (by rw [← he]; exact hvb) h0
      exact ⟨fun h => absurd h h1, fun h => absurd h h2⟩
    · have e : t1 = i0 := by have := hvb.1; omega
      rw [hskip e, hskip' e]

example : Wider (⟨.fin 1, .fin 1, some 100, 0, 0⟩ : TbmParams ℚ) 2 ⟨.fin 2, .fin 1, some 100, 0, 0⟩ 3 :=
  wider_of_le _ _ 2 3 1 1 1 2 rfl rfl rfl rfl (by norm_num) (by norm_num) (by norm_num) (by norm_num) (by norm_num)
    (by norm_num)
example : (tbmEvent (⟨.fin 1, .fin 1, some 100, 0, 0⟩ : TbmParams ℚ) [0, 10, 20, 30] [0, 1, 2, 4] false 0 2 1).touch = some 2 ∧
    (tbmEvent (⟨.fin 2, .fin 1, some 100, 0, 0⟩ : TbmParams ℚ) [0, 10, 20, 30] [0, 1, 2, 4] false 0 3 1).touch = some 3 := by
  decide +kernel

/-- **C161 (nothing touched).** If no horizontal barrier is touched, moving them further out changes neither touch nor
return nor label. -/
theorem C161_untouched (p p' : TbmParams K) {ts : List Int} (hs : ts.Pairwise (· ≤ ·)) (logc : List K)
    (isMeta : Bool) {i0 : Nat} (hi : i0 < ts.length) (tgt tgt' : K) (side : Int)
    (hv : ∀ x, p.vertical = some x → 0 < x) (hw : Wider p tgt p' tgt') (hl : p'.vertical = p.vertical)
    (hm : p'.minClose = p.minClose) (hr : p'.minRet = p.minRet) (t1 : Nat) (hvb : IsVerticalBar ts i0 p.vertical t1)
    (hno : NoTouch p ts logc i0 t1 tgt side) :
    let e := tbmEvent p ts logc isMeta i0 tgt side
    let e' := tbmEvent p' ts logc isMeta i0 tgt' side
    e'.label = e.label ∧ e'.touch = e.touch ∧ e'.ret = e.ret := by
  intro e e'
  have hvb' : IsVerticalBar ts i0 p'.vertical t1 := by rw [hl]; exact hvb
  have hv' : ∀ x, p'.vertical = some x → 0 < x := by rw [hl]; exact hv
  by_cases h0 : i0 < t1
  · obtain ⟨y, r, ra, he, hc⟩ := tbmEvent_at p hs logc isMeta hi tgt side hv t1 hvb h0
    obtain ⟨y', r', ra', he', hc'⟩ := tbmEvent_at p' hs logc isMeta hi tgt' side hv' t1 hvb' h0
    have c1 : y = t1 ∧ r = if Closable ts i0 t1 p.minClose t1 then pathReturn logc i0 side t1 else 0 := by
      rcases hc with ⟨a1, a2, a3, -⟩ | ⟨-, h⟩
      · exact absurd (a2 ▸ a3) (hno y a1)
      · exact h
    have c2 : y' = t1 ∧ r' = if Closable ts i0 t1 p.minClose t1 then pathReturn logc i0 side t1 else 0 := by
      rcases hc' with ⟨a1, a2, a3, -⟩ | ⟨-, h⟩
      · rw [hm] at a1
        refine absurd ?_ (hno y' a1)
        rw [← a2]; exact a3.imp (hw.upper _) (hw.lower _)
      · rw [hm] at h; exact h
    have er : r' = r := c2.2.trans c1.2.symm
    have ey : y' = y := c2.1.trans c1.1.symm
    simp only [e, e', he, he', er, ey, hr]
    exact ⟨trivial, trivial, trivial⟩
  · obtain ⟨t, ht, hsk, -⟩ := C24_first_touch_partial p hs logc isMeta hi tgt side hv
    obtain ⟨t', ht', hsk', -⟩ := C24_first_touch_partial p' hs logc isMeta hi tgt' side hv'
    have et := verticalBar_unique ts i0 _ t t1 ht hvb
    have et' := verticalBar_unique ts i0 _ t' t1 ht' hvb'
    have := hvb.1
    simp only [e, e']
    rw [hsk (by omega), hsk' (by omega)]
    exact ⟨rfl, rfl, rfl⟩

example : IsVerticalBar [0, 10] 0 (some 100) 1 ∧
    NoTouch (⟨.fin 1, .fin 1, some 100, 0, 0⟩ : TbmParams ℚ) [0, 10] [0, 1] 0 1 2 1 := by
  refine ⟨⟨by decide, by decide, ?_⟩, ?_⟩
  · intro j hj
    match j, hj with
    | 0, _ => decide
    | 1, _ => decide
  · rintro j ⟨h1, h2, -⟩
    obtain rfl : j = 1 := by omega
    simp only [UpperHit, LowerHit, pathReturn]
    norm_num

/-- **C161 (later vertical barrier).** An event that ends at a horizontal barrier ends there with the same return and
label whatever the vertical barrier, as long as that is not moved nearer. -/
theorem C161_longer_horizon (p p' : TbmParams K) {ts : List Int} (hs : ts.Pairwise (· ≤ ·)) (logc : List K)
    (isMeta : Bool) {i0 : Nat} (hi : i0 < ts.length) (tgt : K) (side : Int)
    (hv : ∀ x, p.vertical = some x → 0 < x) (hv' : ∀ x, p'.vertical = some x → 0 < x)
    (ht : p'.top = p.top) (hb : p'.bottom = p.bottom) (hl : LaterEnd p.vertical p'.vertical)
    (hm : p'.minClose = p.minClose) (hr : p'.minRet = p.minRet) (t1 : Nat) (hvb : IsVerticalBar ts i0 p.vertical t1)
    (x : Nat) (r : K) (hft : FirstTouch p ts logc i0 t1 tgt side x r) :
    let e := tbmEvent p ts logc isMeta i0 tgt side
    let e' := tbmEvent p' ts logc isMeta i0 tgt side
    e'.label = e.label ∧ e'.touch = some x ∧ e.touch = some x ∧ e'.ret = some r ∧ e.ret = some r := by
  intro e e'
  obtain ⟨t1', hvb', -, -⟩ := C24_first_touch_partial p' hs logc isMeta hi tgt side hv'
  have hle := verticalBar_le ts i0 _ _ hl t1 t1' hvb hvb'
  have h0 : i0 < t1 := lt_of_lt_of_le hft.1.1 hft.1.2.1
  obtain ⟨y, s, ra, he, hc⟩ := tbmEvent_at p hs logc isMeta hi tgt side hv t1 hvb h0
  obtain ⟨y', s', ra', he', hc'⟩ := tbmEvent_at p' hs logc isMeta hi tgt side hv' t1' hvb' (by omega)
  have c1 : y = x ∧ s = r := by
    rcases hc with h | ⟨h, -⟩
    · exact firstTouch_unique p ts logc i0 t1 tgt side y x s r h hft
    · exact absurd (hft.2.1 ▸ hft.2.2.1) (h x hft.1)
  have hft' : FirstTouch p' ts logc i0 t1' tgt side x r := by
    obtain ⟨a1, a2, a3, a4⟩ := hft
    refine ⟨⟨a1.1, le_trans a1.2.1 hle, by rw [hm]; exact a1.2.2⟩, a2, by rw [ht, hb]; exact a3, ?_⟩
    intro j hj hjx
    rw [ht, hb]
    rw [hm] at hj
    exact a4 j ⟨hj.1, by have := a1.2.1; omega, hj.2.2⟩ hjx
  have c2 : y' = x ∧ s' = r := by
    rcases hc' with h | ⟨h, -⟩
    · exact firstTouch_unique p' ts logc i0 t1' tgt side y' x s' r h hft'
    · exact absurd (hft'.2.1 ▸ hft'.2.2.1) (h x hft'.1)
  obtain ⟨rfl, rfl⟩ := c1
  obtain ⟨rfl, rfl⟩ := c2
  simp only [e, e', he, he', hr]
  exact ⟨trivial, trivial, trivial, trivial, trivial⟩

example : (tbmEvent (⟨.fin 1, .fin 1, some 20, 0, 0⟩ : TbmParams ℚ) [0, 10, 20, 30] [0, 1, 2, 4] false 0 2 1).touch = some 2 ∧
    (tbmEvent (⟨.fin 1, .fin 1, none, 0, 0⟩ : TbmParams ℚ) [0, 10, 20, 30] [0, 1, 2, 4] false 0 2 1).touch = some 2 ∧
    LaterEnd (some 20) none := ⟨by decide +kernel, by decide +kernel, trivial⟩
example : FirstTouch (⟨.fin 1, .fin 1, some 20, 0, 0⟩ : TbmParams ℚ) [0, 10, 20, 30] [0, 1, 2, 4] 0 2 2 1 2 2 := by
  refine ⟨by decide, by norm_num [pathReturn], Or.inl (by norm_num [UpperHit]), ?_⟩
  rintro j ⟨h1, h2, -⟩ h3
  obtain rfl : j = 1 := by omega
  simp only [UpperHit, LowerHit, pathReturn]
  norm_num

/-- **C161 (one barrier moved).** An event that ends at one horizontal barrier keeps touch, return and label when only the
other one is moved outward: if its return is still beyond the new barriers, nothing changes. -/
theorem C161_other_barrier (p p' : TbmParams K) {ts : List Int} (hs : ts.Pairwise (· ≤ ·)) (logc : List K)
    (isMeta : Bool) {i0 : Nat} (hi : i0 < ts.length) (tgt tgt' : K) (side : Int)
    (hv : ∀ x, p.vertical = some x → 0 < x) (hw : Wider p tgt p' tgt') (hl : p'.vertical = p.vertical)
    (hm : p'.minClose = p.minClose) (hr : p'.minRet = p.minRet) (t1 : Nat) (hvb : IsVerticalBar ts i0 p.vertical t1)
    (x : Nat) (r : K) (hft : FirstTouch p ts logc i0 t1 tgt side x r)
    (hstill : UpperHit p'.top tgt' r ∨ LowerHit p'.bottom tgt' r) :
    let e := tbmEvent p ts logc isMeta i0 tgt side
    let e' := tbmEvent p' ts logc isMeta i0 tgt' side
    e'.label = e.label ∧ e'.touch = some x ∧ e.touch = some x ∧ e'.ret = some r ∧ e.ret = some r := by
  intro e e'
  have hvb' : IsVerticalBar ts i0 p'.vertical t1 := by rw [hl]; exact hvb
  have hv' : ∀ x, p'.vertical = some x → 0 < x := by rw [hl]; exact hv
  have h0 : i0 < t1 := lt_of_lt_of_le hft.1.1 hft.1.2.1
  obtain ⟨y, s, ra, he, hc⟩ := tbmEvent_at p hs logc isMeta hi tgt side hv t1 hvb h0
  obtain ⟨y', s', ra', he', hc'⟩ := tbmEvent_at p' hs logc isMeta hi tgt' side hv' t1 hvb' h0
  have c1 : y = x ∧ s = r := by
    rcases hc with h | ⟨h, -⟩
    · exact firstTouch_unique p ts logc i0 t1 tgt side y x s r h hft
    · exact absurd (hft.2.1 ▸ hft.2.2.1) (h x hft.1)
  have hft' : FirstTouch p' ts logc i0 t1 tgt' side x r := by
    obtain ⟨a1, a2, a3, a4⟩ := hft
    refine ⟨by rw [hm]; exact a1, a2, hstill, ?_⟩
    intro j hj hjx hhit
    rw [hm] at hj
    exact a4 j hj hjx (hhit.imp (hw.upper _) (hw.lower _))
  have c2 : y' = x ∧ s' = r := by
    rcases hc' with h | ⟨h, -⟩
    · exact firstTouch_unique p' ts logc i0 t1 tgt' side y' x s' r h hft'
    · exact absurd (hft'.2.1 ▸ hft'.2.2.1) (h x hft'.1)
  obtain ⟨rfl, rfl⟩ := c1
  obtain ⟨rfl, rfl⟩ := c2
  simp only [e, e', he, he', hr]
  exact ⟨trivial, trivial, trivial, trivial, trivial⟩

example : (tbmEvent (⟨.fin 1, .fin 1, some 100, 0, 0⟩ : TbmParams ℚ) [0, 10, 20, 30] [0, 1, -2, 4] false 0 2 1).touch = some 2 ∧
    (tbmEvent (⟨.fin 1, .pinf, some 100, 0, 0⟩ : TbmParams ℚ) [0, 10, 20, 30] [0, 1, -2, 4] false 0 2 1) =
      ⟨-1, some 2, some (-2), some 1⟩ := by decide +kernel

/-- **C161 (labels can flip).** Moving both barriers outward can turn a positive label into a negative one, and so can a
later vertical barrier for an event that ends there; a larger minimum holding time can change a touched label, too. -/
theorem C161_label_flips :
    let lg : List ℚ := [0, 1, -3, 4]
    let ts : List Int := [0, 10, 20, 30]
    (tbmEvent (⟨.fin 1, .fin 1, some 20, 0, 0⟩ : TbmParams ℚ) ts lg false 0 1 1).label = 1 ∧
    (tbmEvent (⟨.fin 1, .fin 1, some 20, 0, 0⟩ : TbmParams ℚ) ts lg false 0 2 1).label = -1 ∧
    (tbmEvent (⟨.fin 1, .fin 1, some 10, 0, 0⟩ : TbmParams ℚ) ts lg false 0 5 1).label = 1 ∧
    (tbmEvent (⟨.fin 1, .fin 1, some 20, 0, 0⟩ : TbmParams ℚ) ts lg false 0 5 1).label = -1 ∧
    (tbmEvent (⟨.fin 1, .fin 1, some 20, 15, 0⟩ : TbmParams ℚ) ts lg false 0 1 1).label = -1 := by decide +kernel

end FinML

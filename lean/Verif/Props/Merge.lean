/-
C17 (merging split trades).  `finmlkit/bar/utils.py:merge_split_trades`.
-/
import Verif.Model.Trades

set_option linter.unusedSectionVars false

namespace FinML

variable {K : Type} [Field K] [LinearOrder K] [IsStrictOrderedRing K]

/-! ## Specification -/

/-- Two trades agree on timestamp, on price up to `tol`, and (if sides are known) on side. -/
def Mergeable (tol : K) (withSide : Bool) (a b : RawTrade K) : Prop :=
  b.ts = a.ts ∧ |b.price - a.price| < tol ∧ (withSide = true → b.maker = a.maker)

/-- `out` is the trade representing the block `h :: t`: timestamp, price and side of the first trade, summed amount;
all trades of the block are mergeable with the first. -/
structure Represents (tol : K) (withSide : Bool) (b : List (RawTrade K)) (out : MTrade K) : Prop where
  nonempty : b ≠ []
  ts : ∀ x ∈ b, x.ts = out.ts
  price : ∀ h ∈ b.head?, out.price = h.price
  amount : out.amount = (b.map (·.amount)).sum
  side : withSide = true → ∀ x ∈ b, out.side = if x.maker then -1 else 1
  uniform : ∀ h ∈ b.head?, ∀ x ∈ b.tail, Mergeable tol withSide h x

/-- `out` is `input` grouped into consecutive maximal blocks: every block is represented by one output trade, and the
first trade of a block is not mergeable with the first trade of the block before it. -/
def IsMergeOf (tol : K) (withSide : Bool) (input : List (RawTrade K)) (out : List (MTrade K)) : Prop :=
  ∃ blocks : List (List (RawTrade K)), blocks.flatten = input ∧
    List.Forall₂ (Represents tol withSide) blocks out ∧
    blocks.IsChain (fun b c => ∀ h ∈ b.head?, ∀ g ∈ c.head?, ¬ Mergeable tol withSide h g)

/-! ## Lemmas -/

theorem sameTrade_iff (tol : K) (withSide : Bool) (cur : MTrade K) (h t : RawTrade K)
    (h1 : cur.ts = h.ts) (h2 : cur.price = h.price) (h3 : withSide = true → cur.side = makerSide h.maker) :
    sameTrade tol withSide cur t = true ↔ Mergeable tol withSide h t := by
  unfold sameTrade Mergeable
  rw [h1, h2]
  cases withSide with
  | false => simp
  | true =>
    have := h3 rfl
    rw [this]
    cases hm : h.maker <;> cases tm : t.maker <;> simp [makerSide]

theorem mergeLoop_spec (tol : K) (withSide : Bool) (ts : List (RawTrade K)) (cur : MTrade K)
    (h : RawTrade K) (tl : List (RawTrade K))
    (hr : Represents tol withSide (h :: tl) cur) :
    ∃ blocks : List (List (RawTrade K)), blocks.flatten = (h :: tl) ++ ts ∧
      List.Forall₂ (Represents tol withSide) blocks (mergeLoop tol withSide cur ts) ∧
      blocks.IsChain (fun b c => ∀ h ∈ b.head?, ∀ g ∈ c.head?, ¬ Mergeable tol withSide h g) ∧
      (blocks.head?.bind List.head?) = some h := by
  induction ts generalizing cur h tl with
  | nil =>
    refine ⟨[h :: tl], by simp, ?_, by simp, by simp⟩
    unfold mergeLoop
    exact List.Forall₂.cons hr List.Forall₂.nil
  | cons t ts ih =>
    have c1 : cur.ts = h.ts := (hr.ts h (by simp)).symm
    have c2 : cur.price = h.price := hr.price h (by simp)
    have c3 : withSide = true → cur.side = makerSide h.maker := fun w => hr.side w h (by simp)
    have hiff := sameTrade_iff tol withSide cur h t c1 c2 c3
    unfold mergeLoop
    by_cases hs : sameTrade tol withSide cur t = true
    · rw [if_pos hs]
      have hm := hiff.mp hs
      have hr' : Represents tol withSide (h :: (tl ++ [t])) { cur with amount := cur.amount + t.amount } := by
        refine ⟨by simp, ?_, ?_, ?_, ?_, ?_⟩
        · intro x hx
          rw [← List.cons_append] at hx
          rcases List.mem_append.mp hx with hx | hx
          · exact hr.ts x hx
          · simp at hx; subst hx; rw [hm.1, ← c1]
        · intro g hg; simp at hg; subst hg; exact c2
        · show cur.amount + t.amount = _
          rw [hr.amount]; simp [add_assoc]
        · intro w x hx
          rw [← List.cons_append] at hx
          rcases List.mem_append.mp hx with hx | hx
          · exact hr.side w x hx
          · simp at hx; subst hx
            rw [hm.2.2 w]; exact hr.side w h (by simp)
        · intro g hg x hx
          simp at hg; subst hg
          rw [List.tail_cons] at hx
          rcases List.mem_append.mp hx with hx | hx
          · exact hr.uniform h (by simp) x (by simpa using hx)
          · simp at hx; subst hx; exact hm
      obtain ⟨bl, e1, e2, e3, e4⟩ := ih _ h (tl ++ [t]) hr'
      exact ⟨bl, by rw [e1]; simp, e2, e3, e4⟩
    · rw [if_neg hs]
      have hr' : Represents tol withSide [t] (MTrade.start withSide t) := by
        refine ⟨by simp, ?_, ?_, ?_, ?_, ?_⟩
        · intro x hx; simp at hx; subst hx; rfl
        · intro x hx; simp at hx; subst hx; rfl
        · simp [MTrade.start]
        · intro w x hx; simp at hx; subst hx; simp [MTrade.start, w, makerSide]
        · intro g _ x hx; simp at hx
      obtain ⟨bl, e1, e2, e3, e4⟩ := ih _ t [] hr'
      refine ⟨(h :: tl) :: bl, by rw [List.flatten_cons, e1]; simp, List.Forall₂.cons hr e2, ?_, by simp⟩
      rw [List.isChain_cons]
      refine ⟨?_, e3⟩
      intro c hc h' hh' g hg
      simp at hh'; subst hh'
      cases bl with
      | nil => simp at hc
      | cons c' bl' =>
        simp at hc e4
        subst hc
        rw [Option.mem_def, e4] at hg
        cases Option.some.inj hg
        exact fun hm => hs (hiff.mpr hm)

/-! ## Theorems -/

/-- **C17.** The output of merging is the input grouped into consecutive maximal blocks, each represented by the
timestamp, price and side of its first trade and its summed amount. -/
theorem C17_merge_blocks (tol : K) (withSide : Bool) (input : List (RawTrade K)) :
    IsMergeOf tol withSide input (mergeSplitTrades tol withSide input) := by
  cases input with
  | nil => exact ⟨[], rfl, List.Forall₂.nil, List.IsChain.nil⟩
  | cons t ts =>
    have hr' : Represents tol withSide [t] (MTrade.start withSide t) := by
      refine ⟨by simp, ?_, ?_, ?_, ?_, ?_⟩
      · intro x hx; simp at hx; subst hx; rfl
      · intro x hx; simp at hx; subst hx; rfl
      · simp [MTrade.start]
      · intro w x hx; simp at hx; subst hx; simp [MTrade.start, w, makerSide]
      · intro g _ x hx; simp at hx
    obtain ⟨bl, e1, e2, e3, _⟩ := mergeLoop_spec tol withSide ts _ t [] hr'
    exact ⟨bl, by rw [e1]; simp, e2, e3⟩

/-- **C17 (totals).** Any merge of trades in the sense of `IsMergeOf` keeps the total amount, the amount per timestamp,
and the amount per timestamp and side. -/
theorem C17_merge_conserves (tol : K) (withSide : Bool) (input : List (RawTrade K)) (out : List (MTrade K))
    (h : IsMergeOf tol withSide input out) :
    (out.map (·.amount)).sum = (input.map (·.amount)).sum ∧
    (∀ t, ((out.filter (fun m => decide (m.ts = t))).map (·.amount)).sum =
      ((input.filter (fun m => decide (m.ts = t))).map (·.amount)).sum) ∧
    (withSide = true → ∀ t (maker : Bool),
      ((out.filter (fun m => decide (m.ts = t ∧ m.side = if maker then -1 else 1))).map (·.amount)).sum =
      ((input.filter (fun m => decide (m.ts = t ∧ m.maker = maker))).map (·.amount)).sum) := by
  obtain ⟨blocks, rfl, hf, hch⟩ := h
  clear hch
  have gen : ∀ (P : MTrade K → Bool) (Q : RawTrade K → Bool),
      (∀ b m, Represents tol withSide b m → ∀ x ∈ b, Q x = P m) →
      ((out.filter P).map (·.amount)).sum = ((blocks.flatten.filter Q).map (·.amount)).sum := by
    intro P Q hPQ
    induction hf with
    | nil => simp
    | @cons b m bs ms hbm _ ih =>
      rw [List.flatten_cons, List.filter_append, List.map_append, List.sum_append, ← ih]
      have hQ := hPQ b m hbm
      cases hP : P m with
      | true =>
        have : b.filter Q = b := List.filter_eq_self.mpr (fun x hx => by rw [hQ x hx, hP])
        rw [this, List.filter_cons_of_pos hP, List.map_cons, List.sum_cons, hbm.amount]
      | false =>
        have : b.filter Q = [] := List.filter_eq_nil_iff.mpr (fun x hx => by rw [hQ x hx, hP]; simp)
        rw [this, List.filter_cons_of_neg (by simp [hP])]; simp
  refine ⟨?_, ?_, ?_⟩
  · have := gen (fun _ => true) (fun _ => true) (fun _ _ _ _ _ => rfl)
    rwa [List.filter_eq_self.mpr (fun _ _ => rfl), List.filter_eq_self.mpr (fun _ _ => rfl)] at this
  · intro t
    exact gen _ _ (fun b m hbm x hx => by rw [hbm.ts x hx])
  · intro w t maker
    refine gen _ _ (fun b m hbm x hx => ?_)
    have h1 := hbm.ts x hx
    have h2 := hbm.side w x hx
    rw [h1, h2]
    congr 1
    cases x.maker <;> cases maker <;> simp

/-- **C17 (per price).** If any two prices of the input are equal or at least the tolerance apart (as on a price grid),
merging also keeps the amount per timestamp and price. -/
theorem C17_merge_conserves_price (tol : K) (withSide : Bool) (input : List (RawTrade K)) (out : List (MTrade K))
    (h : IsMergeOf tol withSide input out)
    (hgrid : ∀ a ∈ input, ∀ b ∈ input, |b.price - a.price| < tol → b.price = a.price) (t : Int) (p : K) :
    ((out.filter (fun m => decide (m.ts = t ∧ m.price = p))).map (·.amount)).sum =
      ((input.filter (fun m => decide (m.ts = t ∧ m.price = p))).map (·.amount)).sum := by
  obtain ⟨blocks, rfl, hf, hch⟩ := h
  clear hch
  induction hf with
  | nil => simp
  | @cons b m bs ms hbm _ ih =>
    rw [List.flatten_cons, List.filter_append, List.map_append, List.sum_append,
      ← ih (fun a ha b' hb' => hgrid a (by rw [List.flatten_cons]; simp [ha]) b' (by rw [List.flatten_cons]; simp [hb']))]
    have hx : ∀ x ∈ b, x.ts = m.ts ∧ x.price = m.price := by
      intro x hx
      refine ⟨hbm.ts x hx, ?_⟩
      cases b with
      | nil => simp at hx
      | cons h0 tl =>
        have hp := hbm.price h0 (by simp)
        rw [hp]
        rcases List.mem_cons.mp hx with rfl | hx'
        · rfl
        · have := hbm.uniform h0 (by simp) x (by simpa using hx')
          exact hgrid h0 (by simp) x (by simp [hx']) this.2.1
    by_cases hm : m.ts = t ∧ m.price = p
    · have : b.filter (fun m => decide (m.ts = t ∧ m.price = p)) = b :=
        List.filter_eq_self.mpr (fun x h' => by rw [(hx x h').1, (hx x h').2]; simpa using hm)
      rw [this, List.filter_cons_of_pos (by simpa using hm), List.map_cons, List.sum_cons, hbm.amount]
    · have : b.filter (fun m => decide (m.ts = t ∧ m.price = p)) = [] :=
        List.filter_eq_nil_iff.mpr (fun x h' => by rw [(hx x h').1, (hx x h').2]; simpa using hm)
      rw [this, List.filter_cons_of_neg (by simpa using hm)]; simp

example : ∀ a ∈ ([5, 6, 5] : List ℚ), ∀ b ∈ ([5, 6, 5] : List ℚ), |b - a| < 1 / 2 → b = a := by decide +kernel

/-- **C17 (maximality).** Two adjacent output trades never agree on timestamp, side (if known) and price within the
tolerance. -/
theorem C17_merge_maximal (tol : K) (withSide : Bool) (input : List (RawTrade K)) (out : List (MTrade K))
    (h : IsMergeOf tol withSide input out) :
    out.IsChain (fun m n => ¬ (n.ts = m.ts ∧ |n.price - m.price| < tol ∧ (withSide = true → n.side = m.side))) := by
  obtain ⟨blocks, _, hf, hc⟩ := h
  clear * - hf hc
  induction hf with
  | nil => exact List.IsChain.nil
  | @cons b m bs ms hbm hrest ih =>
    rw [List.isChain_cons] at hc ⊢
    refine ⟨?_, ih hc.2⟩
    intro n hn hmatch
    cases hrest with
    | nil => simp at hn
    | @cons c n' cs ns hcn _ =>
      simp at hn; subst hn
      have hb := hbm.nonempty
      have hcne := hcn.nonempty
      cases b with
      | nil => exact hb rfl
      | cons h tl =>
        cases c with
        | nil => exact hcne rfl
        | cons g gl =>
          apply hc.1 (g :: gl) (by simp) h (by simp) g (by simp)
          refine ⟨?_, ?_, ?_⟩
          · rw [hcn.ts g (by simp), hbm.ts h (by simp)]; exact hmatch.1
          · rw [← hcn.price g (by simp), ← hbm.price h (by simp)]; exact hmatch.2.1
          · intro w
            have := hmatch.2.2 w
            rw [hcn.side w g (by simp), hbm.side w h (by simp)] at this
            cases hg : g.maker <;> cases hh : h.maker <;> rw [hg, hh] at this <;> simp at this ⊢

/-- **C17 (order).** If the input timestamps are non-decreasing so are the output timestamps, and every output
timestamp is an input timestamp. -/
theorem C17_merge_ordered (tol : K) (withSide : Bool) (input : List (RawTrade K)) (out : List (MTrade K))
    (h : IsMergeOf tol withSide input out) (hs : input.Pairwise (fun a b => a.ts ≤ b.ts)) :
    out.Pairwise (fun a b => a.ts ≤ b.ts) ∧ ∀ m ∈ out, ∃ x ∈ input, m.ts = x.ts := by
  obtain ⟨blocks, rfl, hf, hch⟩ := h
  clear hch
  have hmem : ∀ (bs : List (List (RawTrade K))) (ms : List (MTrade K)),
      List.Forall₂ (Represents tol withSide) bs ms → ∀ m ∈ ms, ∃ x ∈ bs.flatten, m.ts = x.ts := by
    intro bs ms hf
    induction hf with
    | nil => simp
    | @cons b m bs ms hbm _ ih =>
      intro n hn
      rcases List.mem_cons.mp hn with rfl | hn
      · cases b with
        | nil => exact absurd rfl hbm.nonempty
        | cons h tl => exact ⟨h, by simp, (hbm.ts h (by simp)).symm⟩
      · obtain ⟨x, hx, hxe⟩ := ih n hn
        exact ⟨x, by rw [List.flatten_cons]; simp [hx], hxe⟩
  refine ⟨?_, hmem _ _ hf⟩
  induction hf with
  | nil => simp
  | @cons b m bs ms hbm hrest ih =>
    rw [List.flatten_cons, List.pairwise_append] at hs
    refine List.pairwise_cons.mpr ⟨?_, ih hs.2.1⟩
    intro n hn
    obtain ⟨x, hx, hxe⟩ := hmem _ _ hrest n hn
    cases b with
    | nil => exact absurd rfl hbm.nonempty
    | cons h tl =>
      rw [← hbm.ts h (by simp), hxe]
      exact hs.2.2 h (by simp) x hx

example : mergeSplitTrades (1/100000000 : ℚ) true
    [⟨1, 10, 2, true⟩, ⟨1, 10, 3, true⟩, ⟨1, 10, 1, false⟩, ⟨2, 10, 1, false⟩, ⟨2, 11, 1, false⟩] =
    [⟨1, 10, 5, -1⟩, ⟨1, 10, 1, 1⟩, ⟨2, 10, 1, 1⟩, ⟨2, 11, 1, 1⟩] := by decide +kernel

end FinML

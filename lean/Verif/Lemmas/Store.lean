/-
Lemmas on finite maps and on the effect of `save_h5` on the store.
-/
import Verif.Model.Store

set_option linter.unusedSectionVars false

namespace FinML

variable {K : Type} [Field K] [LinearOrder K] [IsStrictOrderedRing K] {κ : Type} [LinearOrder κ] {V : Type}

theorem aget_adel (k k' : κ) (m : List (κ × V)) : aget k' (adel k m) = if k' = k then none else aget k' m := by
  induction m with
  | nil => simp [adel, aget]
  | cons p m ih =>
    obtain ⟨a, v⟩ := p
    unfold adel
    by_cases h : a = k
    · rw [if_pos h, ih]
      by_cases h' : k' = k
      · simp [h']
      · rw [if_neg h', if_neg h']
        have : a ≠ k' := fun e => h' (by rw [← e, h])
        simp [aget, this]
    · rw [if_neg h]
      by_cases h' : k' = k
      · have : a ≠ k' := fun e => h (by rw [e, h'])
        simp only [aget, if_neg this, ih]
      · simp only [aget, ih, if_neg h']

theorem aget_aset (k k' : κ) (v : V) (m : List (κ × V)) : aget k' (aset k v m) = if k' = k then some v else aget k' m := by
  unfold aset
  by_cases h : k' = k
  · simp [aget, h]
  · have : k ≠ k' := fun e => h e.symm
    simp only [aget, if_neg this, aget_adel, if_neg h]

/-- The keys of a map. -/
def akeys (m : List (κ × V)) : List κ := m.map (·.1)

theorem mem_akeys_adel (k k' : κ) (m : List (κ × V)) : k' ∈ akeys (adel k m) → k' ∈ akeys m ∧ k' ≠ k := by
  induction m with
  | nil => simp [adel, akeys]
  | cons p m ih =>
    obtain ⟨a, v⟩ := p
    unfold adel
    split_ifs with h
    · intro hm
      have := ih hm
      exact ⟨by unfold akeys at this ⊢; simp [this.1], this.2⟩
    · intro hm
      unfold akeys at hm ih ⊢
      rw [List.map_cons, List.mem_cons] at hm
      rcases hm with rfl | hm
      · exact ⟨by simp, h⟩
      · exact ⟨by simp [(ih hm).1], (ih hm).2⟩

theorem nodup_adel (k : κ) (m : List (κ × V)) (h : (akeys m).Nodup) : (akeys (adel k m)).Nodup := by
  induction m with
  | nil => simp [adel, akeys]
  | cons p m ih =>
    obtain ⟨a, v⟩ := p
    unfold akeys at h
    rw [List.map_cons, List.nodup_cons] at h
    unfold adel
    split_ifs with h'
    · exact ih h.2
    · unfold akeys
      rw [List.map_cons, List.nodup_cons]
      exact ⟨fun hm => h.1 (mem_akeys_adel k a m hm).1, ih h.2⟩

theorem nodup_aset (k : κ) (v : V) (m : List (κ × V)) (h : (akeys m).Nodup) : (akeys (aset k v m)).Nodup := by
  unfold aset akeys
  rw [List.map_cons, List.nodup_cons]
  exact ⟨fun hm => (mem_akeys_adel k k m hm).2 rfl, nodup_adel k m h⟩

theorem mem_iff_aget (m : List (κ × V)) (h : (akeys m).Nodup) (k : κ) (v : V) : (k, v) ∈ m ↔ aget k m = some v := by
  induction m with
  | nil => simp [aget]
  | cons p m ih =>
    obtain ⟨a, w⟩ := p
    unfold akeys at h
    rw [List.map_cons, List.nodup_cons] at h
    rw [List.mem_cons, ih h.2]
    by_cases hk : a = k
    · subst hk
      simp only [aget, if_true, Prod.mk.injEq, true_and, Option.some.injEq]
      constructor
      · rintro (h' | h')
        · exact h'.symm
        · exact absurd (List.mem_map.mpr ⟨(a, v), (ih h.2).mpr h', rfl⟩) h.1
      · intro h'; exact Or.inl h'.symm
    · simp only [aget, if_neg hk, Prod.mk.injEq]
      constructor
      · rintro (h' | h')
        · exact absurd h'.1.symm hk
        · exact h'
      · exact Or.inr

/-! ## Effect of a save -/

/-- The metadata describing exactly the frame `f`. -/
def frameMeta (f : Frame K) : Meta K :=
  ⟨f.rows.length, (f.rows.head?.map (·.ts)).getD 0, (f.rows.getLast?.map (·.ts)).getD 0, f.dataOk, f.missingPct⟩

theorem saveOps_overwrite (st : Store κ K) (k : κ) (f : Frame K)
    (h : (aget k st.trades).isSome = true → (aget k st.metas).isSome = true) :
    ∃ st', runOps st (saveOps st k f true) = (st', none) ∧
      (∀ k', aget k' st'.trades = if k' = k then some f.rows else aget k' st.trades) ∧
      (∀ k', aget k' st'.metas = if k' = k then some (frameMeta f) else aget k' st.metas) ∧
      (∀ k', aget k' st'.integrity = if k' = k then
          (if f.discontinuities = [] then (if (aget k st.trades).isSome then none else aget k st.integrity)
            else some f.discontinuities) else aget k' st.integrity) ∧
      ((akeys st.metas).Nodup → (akeys st'.metas).Nodup) := by
  have hm : saveMeta st k f true = frameMeta f := by
    unfold saveMeta frameMeta
    cases hx : (aget k st.trades).isSome <;> simp
  unfold saveOps
  rw [hm]
  cases hx : aget k st.trades with
  | none =>
    cases hd : f.discontinuities with
    | nil =>
      refine ⟨⟨aset k f.rows st.trades, aset k (frameMeta f) st.metas, st.integrity⟩, rfl, ?_, ?_, ?_,
        fun hn => nodup_aset _ _ _ hn⟩
      · intro k'; exact aget_aset _ _ _ _
      · intro k'; exact aget_aset _ _ _ _
      · intro k'; by_cases hk : k' = k <;> simp [hk]
    | cons d ds =>
      refine ⟨⟨aset k f.rows st.trades, aset k (frameMeta f) st.metas, aset k (d :: ds) st.integrity⟩, rfl, ?_, ?_, ?_,
        fun hn => nodup_aset _ _ _ hn⟩
      · intro k'; exact aget_aset _ _ _ _
      · intro k'; exact aget_aset _ _ _ _
      · intro k'; by_cases hk : k' = k <;> simp [aget_aset, hk]
  | some rows =>
    have hx2 := h (by rw [hx]; rfl)
    cases hi : aget k st.integrity with
    | none =>
      cases hd : f.discontinuities with
      | nil =>
        refine ⟨⟨aset k f.rows (adel k st.trades), aset k (frameMeta f) (adel k st.metas), st.integrity⟩,
          by simp [runOps, StoreOp.run, hx, hx2], ?_, ?_, ?_, fun hn => nodup_aset _ _ _ (nodup_adel _ _ hn)⟩
        · intro k'; by_cases hk : k' = k <;> simp [aget_aset, aget_adel, hk]
        · intro k'; by_cases hk : k' = k <;> simp [aget_aset, aget_adel, hk]
        · intro k'; by_cases hk : k' = k <;> simp [hk, hi]
      | cons d ds =>
        refine ⟨⟨aset k f.rows (adel k st.trades), aset k (frameMeta f) (adel k st.metas), aset k (d :: ds) st.integrity⟩,
          by simp [runOps, StoreOp.run, hx, hx2], ?_, ?_, ?_, fun hn => nodup_aset _ _ _ (nodup_adel _ _ hn)⟩
        · intro k'; by_cases hk : k' = k <;> simp [aget_aset, aget_adel, hk]
        · intro k'; by_cases hk : k' = k <;> simp [aget_aset, aget_adel, hk]
        · intro k'; by_cases hk : k' = k <;> simp [aget_aset, hk]
    | some i =>
      cases hd : f.discontinuities with
      | nil =>
        refine ⟨⟨aset k f.rows (adel k st.trades), aset k (frameMeta f) (adel k st.metas), adel k st.integrity⟩,
          by simp [runOps, StoreOp.run, hx, hx2, hi], ?_, ?_, ?_, fun hn => nodup_aset _ _ _ (nodup_adel _ _ hn)⟩
        · intro k'; by_cases hk : k' = k <;> simp [aget_aset, aget_adel, hk]
        · intro k'; by_cases hk : k' = k <;> simp [aget_aset, aget_adel, hk]
        · intro k'; by_cases hk : k' = k <;> simp [aget_adel, hk]
      | cons d ds =>
        refine ⟨⟨aset k f.rows (adel k st.trades), aset k (frameMeta f) (adel k st.metas),
            aset k (d :: ds) (adel k st.integrity)⟩,
          by simp [runOps, StoreOp.run, hx, hx2, hi], ?_, ?_, ?_, fun hn => nodup_aset _ _ _ (nodup_adel _ _ hn)⟩
        · intro k'; by_cases hk : k' = k <;> simp [aget_aset, aget_adel, hk]
        · intro k'; by_cases hk : k' = k <;> simp [aget_aset, aget_adel, hk]
        · intro k'; by_cases hk : k' = k <;> simp [aget_aset, aget_adel, hk]

/-- A save to a month whose metadata is missing while its rows are present raises after removing the rows. -/
theorem saveOps_orphan (st : Store κ K) (k : κ) (f : Frame K)
    (h1 : (aget k st.trades).isSome = true) (h2 : aget k st.metas = none) :
    runOps st (saveOps st k f true) = ({ st with trades := adel k st.trades }, some "KeyError") := by
  unfold saveOps
  simp [h1, h2, runOps, StoreOp.run]

theorem rowsMonotone_iff (l : List (OutTrade K)) : rowsMonotone l = true ↔ l.Pairwise (fun a b => a.ts ≤ b.ts) := by
  induction l with
  | nil => simp [rowsMonotone]
  | cons a l ih =>
    cases l with
    | nil => simp [rowsMonotone]
    | cons b l =>
      unfold rowsMonotone
      rw [Bool.and_eq_true, ih]
      constructor
      · rintro ⟨h1, h2⟩
        have h1 : a.ts ≤ b.ts := by simpa using h1
        refine List.pairwise_cons.mpr ⟨?_, h2⟩
        intro x hx
        rcases List.mem_cons.mp hx with rfl | hx
        · exact h1
        · exact le_trans h1 ((List.pairwise_cons.mp h2).1 x hx)
      · intro h
        rw [List.pairwise_cons] at h
        exact ⟨by simpa using h.1 b (by simp), h.2⟩

end FinML

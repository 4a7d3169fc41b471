/-
C83: volume profiles of a time range agree with those of the whole data set, after a warm-up.
-/
import Verif.Model.VolumePro
import Verif.Props.VolumeWindows
import Verif.Props.FootprintData

set_option linter.unusedSectionVars false

namespace FinML

variable {K : Type} [Field K] [LinearOrder K] [IsStrictOrderedRing K]

/-- Resetting keeps every parameter that is not given. -/
theorem C83_reset (p : VpParams K) (w n : Option Int) (q : Option K) :
    (p.reset w n q).windowNs = w.getD p.windowNs ∧ (p.reset w n q).nBins = n.getD p.nBins ∧
      (p.reset w n q).pct = q.getD p.pct ∧ p.reset none none none = p := ⟨rfl, rfl, rfl, rfl⟩

/-- The row written before the first complete window: no prices, and zero (not NaN) for the share. -/
def warmRow : VpRow K := ⟨none, none, none, 0⟩

/-- The profile of the bars that close within `w` before `b` and not after it. -/
def profileAt (rnd : K → Int) (B : List (FpBar K)) (w n : Int) (pct : K) (b : FpBar K) : Except String (VpOut K) :=
  let a := alignBars rnd (B.filter (fun x => decide (b.ts - w ≤ x.ts ∧ x.ts ≤ b.ts)))
  profileOf a.1 (List.zipWith (· + ·) a.2.1 a.2.2) (some n) pct

theorem rolling_eq_map (rnd : K → Int) (B : List (FpBar K)) (w n : Int) (pct : K)
    (hs : (B.map FpBar.ts).Pairwise (· ≤ ·)) (hw : 0 ≤ w) :
    volumeProfileRolling rnd B w (some n) pct = B.map (fun b =>
      if b.ts < (B.map FpBar.ts).headD 0 + w then .ok ⟨0, 0, 0, 0⟩ else profileAt rnd B w n pct b) := by
  have hlen : (volumeProfileRolling rnd B w (some n) pct).length = B.length := by
    unfold volumeProfileRolling
    simp only []
    simp [tabulate]
  refine List.ext_getElem? (fun i => ?_)
  by_cases hi : i < B.length
  · rw [C57_rolling_exact rnd B w (some n) pct hs hw i hi, List.getElem?_map, List.getElem?_eq_getElem hi]
    have hhead : (B.map FpBar.ts).headD 0 = (B[0]'(by omega)).ts := by
      cases B with
      | nil => simp at hi
      | cons b t => rfl
    simp only [Option.map_some, hhead, profileAt]
  · rw [List.getElem?_eq_none (by omega), List.getElem?_eq_none (by simpa using hi)]

theorem vpRow_warm (tick : K) : vpRow tick ⟨0, 0, 0, 0⟩ = warmRow := by
  simp [vpRow, vpPrice, warmRow]

theorem vpCompute_ok (rnd : K → K → Int) (p : VpParams K) (bars : List (Int × K × K)) (d : FpData K)
    (hd : d.Aligned) (hb : bars.length = d.ts.length) (hne : d.ts ≠ []) :
    vpCompute rnd p bars d = .ok ((volumeProfileRolling (rnd d.tick) (fpBars bars d) p.windowNs (some p.nBins) p.pct).map
      (fun r => r.map (vpRow d.tick))) := by
  unfold vpCompute
  have h0 : d.ts.length ≠ 0 := fun h => hne (List.length_eq_zero_iff.mp h)
  rw [if_neg (by simpa using hb), if_neg]
  simp [hd.1, hd.2.1, hd.2.2.1, h0]

theorem fpBars_ts (bars : List (Int × K × K)) (d : FpData K) (hd : d.Aligned) (hb : bars.length = d.ts.length) :
    (fpBars bars d).map FpBar.ts = d.ts := by
  obtain ⟨h1, h2, h3, _⟩ := hd
  refine List.ext_getElem (by simp [fpBars, h1, h2, h3, hb]) (fun i hi hi' => ?_)
  simp [fpBars]

theorem keepCol_zip (q : Int → Bool) {α β : Type} : ∀ (ts : List Int) (A : List α) (B : List β), A.length = ts.length →
    B.length = ts.length → (keepCol q ts A).zip (keepCol q ts B) = keepCol q ts (A.zip B)
  | [], _, _, _, _ => by simp [keepCol]
  | t :: ts, [], _, h, _ => by simp at h
  | t :: ts, _ :: _, [], _, h => by simp at h
  | t :: ts, a :: A, b :: B, h1, h2 => by
    have ih := keepCol_zip q ts A B (by simpa using h1) (by simpa using h2)
    unfold keepCol at *
    by_cases h : q t
    · simp [h, ih]
    · simp [h, ih]

theorem keepCol_filter (q : Int → Bool) {α : Type} (f : α → Int) : ∀ (ts : List Int) (A : List α), A.map f = ts →
    keepCol q ts A = A.filter (fun a => q (f a))
  | ts, [], h => by subst h; rfl
  | ts, a :: A, h => by
    subst h
    have ih := keepCol_filter q f (A.map f) A rfl
    unfold keepCol at *
    by_cases hq : q (f a)
    · simp [hq, ih]
    · simp [hq, ih]

theorem keepCol_map (q : Int → Bool) {α β : Type} (g : α → β) (ts : List Int) (A : List α) :
    keepCol q ts (A.map g) = (keepCol q ts A).map g := by
  unfold keepCol
  induction ts generalizing A with
  | nil => rfl
  | cons t ts ih =>
    cases A with
    | nil => rfl
    | cons a A =>
      by_cases h : q t
      · simp [h, ih]
      · simp [h, ih]

theorem flatMap_single {α β : Type} (f : α → List β) (g : α → β) : ∀ (l : List α), (∀ a ∈ l, f a = [g a]) →
    l.flatMap f = l.map g
  | [], _ => rfl
  | a :: l, h => by
    rw [List.flatMap_cons, h a (by simp), List.map_cons, flatMap_single f g l (fun x hx => h x (by simp [hx]))]
    rfl

theorem filter_key_single {α : Type} (f : α → Int) : ∀ (A : List α) (a : α), (A.map f).Pairwise (· < ·) → a ∈ A →
    A.filter (fun x => decide (f x = f a)) = [a]
  | [], _, _, h => by simp at h
  | b :: A, a, hs, ha => by
    rw [List.map_cons, List.pairwise_cons] at hs
    by_cases hba : f b = f a
    · have hA : A.filter (fun x => decide (f x = f a)) = [] := by
        rw [List.filter_eq_nil_iff]
        intro x hx
        have := hs.1 (f x) (List.mem_map_of_mem hx)
        simp only [decide_eq_true_eq]; omega
      rcases List.mem_cons.mp ha with rfl | ha'
      · simp [hA]
      · have := hs.1 (f a) (List.mem_map_of_mem ha')
        omega
    · have hne : a ≠ b := fun h => hba (by rw [h])
      have ha' : a ∈ A := (List.mem_cons.mp ha).resolve_left hne
      simp [hba, filter_key_single f A a hs.2 ha']

/-- With distinct close times the label lookup returns the rows of the range, one per label. -/
theorem locRows_unique (bars : List (Int × K × K)) (hs : (bars.map Prod.fst).Pairwise (· < ·)) (q : Int → Bool) :
    locRows bars ((bars.map Prod.fst).filter q) = .ok (bars.filter (fun b => q b.1)) := by
  have hlab : (bars.map Prod.fst).filter q = (bars.filter (fun b => q b.1)).map Prod.fst := by
    rw [List.filter_map]; rfl
  unfold locRows
  rw [if_pos, hlab]
  · congr 1
    rw [List.flatMap_map, flatMap_single _ (fun b => b), List.map_id']
    intro b hb
    exact filter_key_single Prod.fst bars b hs (List.mem_of_mem_filter hb)
  · rw [List.all_eq_true]
    intro l hl
    rw [List.mem_filter, List.mem_map] at hl
    obtain ⟨⟨b, hb, rfl⟩, _⟩ := hl
    rw [List.any_eq_true]
    exact ⟨b, hb, by simp⟩

theorem fpBars_keep (q : Int → Bool) (bars : List (Int × K × K)) (d : FpData K) (hd : d.Aligned)
    (hb : bars.map Prod.fst = d.ts) :
    fpBars (bars.filter (fun b => q b.1)) (d.mapCols (keepCol q d.ts)) = (fpBars bars d).filter (fun b => q b.ts) := by
  have hlen : bars.length = d.ts.length := by rw [← hb, List.length_map]
  have hts := fpBars_ts bars d hd hlen
  obtain ⟨h1, h2, h3, _⟩ := hd
  rw [← keepCol_filter q FpBar.ts d.ts _ hts, ← keepCol_filter q Prod.fst d.ts bars hb]
  unfold fpBars
  simp only [FpData.mapCols]
  rw [keepCol_zip q d.ts _ _ h2 h3, keepCol_zip q d.ts _ _ h1 (by simp [h2, h3]),
    keepCol_zip q d.ts _ _ rfl (by simp [h1, h2, h3])]
  have hz : ∀ {α β γ : Type} (f : α → β → γ) (A : List α) (B : List β),
      List.zipWith f A B = (A.zip B).map (fun x => f x.1 x.2) := by
    intro α β γ f A B
    rw [List.map_zip_eq_zipWith]
    rfl
  rw [hz, hz, keepCol_zip q d.ts _ _ (by simp [h1, h2, h3]) hlen, keepCol_map]

/-- The bars of the range, warm-up included. -/
def inRange (p : VpParams K) (start stop : DateArg) (t : Int) : Bool :=
  decide (start.first - p.windowNs ≤ t ∧ t ≤ stop.last)

/-- A container with one price level per bar. -/
def plainFp (ts : List Int) : FpData ℚ :=
  { ts := ts, tick := 1, levels := ts.map (fun _ => [10]), buyVol := ts.map (fun _ => [1]),
    sellVol := ts.map (fun _ => [1]), buyTicks := ts.map (fun _ => [1]), sellTicks := ts.map (fun _ => [1]),
    buyImb := ts.map (fun _ => [false]), sellImb := ts.map (fun _ => [false]),
    cot := none, sellSum := none, buySum := none, run := none, skew := none, gini := none }

example : (plainFp [0, 10, 10]).Aligned := by simp [FpData.Aligned, plainFp]

/-- **C83.** The two ends of a range must be given alike: two integers, two timestamps or two texts; any other pair is refused. -/
theorem C83_same_type (rnd : K → K → Int) (p : VpParams K) (bars : List (Int × K × K)) (d : FpData K) (start stop : DateArg)
    (hl : bars.length = d.ts.length) :
    (start.sameType stop = true ↔ (∃ a b, start = .int a ∧ stop = .int b) ∨ (∃ a b, start = .stamp a ∧ stop = .stamp b) ∨
      ∃ a b a' b', start = .text a b ∧ stop = .text a' b') ∧
    (start.sameType stop = false → vpComputeRange rnd p bars d start stop = .error "Start and end should be of the same type.") := by
  constructor
  · cases start <;> cases stop <;> simp [DateArg.sameType]
  · intro h
    unfold vpComputeRange
    rw [if_neg (by simpa using hl), if_pos h]

example : (DateArg.int 5).sameType (.stamp 9) = false ∧ (DateArg.text 5 6).sameType (.text 9 10) = true := ⟨rfl, rfl⟩

/-- **C83.** Let the bars and the footprint have the same, strictly increasing close times.  The result of
`compute_range` lists exactly the bars from one window before `start` up to `end`.  A bar that closes less than one
window after the first of them has no profile; every other bar has exactly the profile of the whole data set. -/
theorem C83_range (rnd : K → K → Int) (p : VpParams K) (bars : List (Int × K × K)) (d : FpData K) (start stop : DateArg)
    (hd : d.Aligned) (hs : d.ts.Pairwise (· < ·)) (hb : bars.map Prod.fst = d.ts) (hw : 0 ≤ p.windowNs)
    (hty : start.sameType stop = true) (hne : ∃ t ∈ d.ts, inRange p start stop t = true) :
    ∃ full vals, vpCompute rnd p bars d = .ok full ∧
      vpComputeRange rnd p bars d start stop = .ok (d.ts.filter (inRange p start stop), vals) ∧
      full.length = d.ts.length ∧ vals.length = (d.ts.filter (inRange p start stop)).length ∧
      (d.ts.filter (inRange p start stop)).zip vals =
        ((d.ts.zip full).filter (fun x => inRange p start stop x.1)).map (fun x =>
          (x.1, if x.1 < (d.ts.filter (inRange p start stop)).headD 0 + p.windowNs then .ok warmRow else x.2)) := by
  set q := inRange p start stop with hq
  have hlen : bars.length = d.ts.length := by rw [← hb, List.length_map]
  have hle : d.ts.Pairwise (· ≤ ·) := hs.imp le_of_lt
  obtain ⟨t0, ht0, hqt0⟩ := hne
  have hdne : d.ts ≠ [] := List.ne_nil_of_mem ht0
  have hts := fpBars_ts bars d hd hlen
  -- the selected container
  have hget : d.get (.dates (start.first - p.windowNs, start.first - p.windowNs) (stop.first, stop.last)) =
      .ok (.inl (d.mapCols (keepCol q d.ts))) := C75_dates d hd hle _ _
  have hsts : (d.mapCols (keepCol q d.ts)).ts = d.ts.filter q := by
    show keepCol q d.ts d.ts = _
    rw [keepCol_filter q (fun t => t) d.ts d.ts (by simp)]
  have hsal : (d.mapCols (keepCol q d.ts)).Aligned := by
    obtain ⟨h1, h2, h3, h4, h5, h6, h7, o1, o2, o3, o4, o5, o6⟩ := hd
    have hk : ∀ {α : Type} (l : List α), l.length = d.ts.length → (keepCol q d.ts l).length = (keepCol q d.ts d.ts).length := by
      intro α l hl
      have hm : ∀ {α : Type} (l : List α), l.length = d.ts.length →
          keepCol q d.ts d.ts = (keepCol q d.ts (l.zip d.ts)).map Prod.snd := by
        intro α l hl
        rw [← keepCol_map]
        congr 1
        rw [List.map_snd_zip]
        omega
      have hm' : keepCol q d.ts l = (keepCol q d.ts (l.zip d.ts)).map Prod.fst := by
        rw [← keepCol_map]
        congr 1
        rw [List.map_fst_zip]
        omega
      rw [hm l hl, hm', List.length_map, List.length_map]
    have hopt : ∀ {α : Type} (o : Option (List α)), (∀ l, o = some l → l.length = d.ts.length) →
        ∀ l, o.map (keepCol q d.ts) = some l → l.length = (keepCol q d.ts d.ts).length := by
      intro α o ho l hl
      cases o with
      | none => simp at hl
      | some m => simp at hl; subst hl; exact hk m (ho m rfl)
    exact ⟨hk _ h1, hk _ h2, hk _ h3, hk _ h4, hk _ h5, hk _ h6, hk _ h7, hopt _ o1, hopt _ o2, hopt _ o3, hopt _ o4,
      hopt _ o5, hopt _ o6⟩
  have hloc : locRows bars (d.ts.filter q) = .ok (bars.filter (fun b => q b.1)) := by
    rw [← hb]
    exact locRows_unique bars (by rw [hb]; exact hs) q
  have hblen : (bars.filter (fun b => q b.1)).length = (d.ts.filter q).length := by
    rw [← hb, List.filter_map, List.length_map]; rfl
  have hsne : d.ts.filter q ≠ [] := List.ne_nil_of_mem (List.mem_filter.mpr ⟨ht0, hqt0⟩)
  refine ⟨_, (volumeProfileRolling (rnd d.tick) ((fpBars bars d).filter (fun b => q b.ts)) p.windowNs (some p.nBins) p.pct).map
      (fun r => r.map (vpRow d.tick)),
    vpCompute_ok rnd p bars d hd hlen hdne, ?_, ?_, ?_, ?_⟩
  · unfold vpComputeRange
    rw [if_neg (by simpa using hlen), hty, if_neg (by simp)]
    dsimp only
    rw [hget]
    dsimp only
    rw [hsts, hloc]
    dsimp only
    rw [vpCompute_ok rnd p _ _ hsal (by rw [hsts, hblen]) (by rw [hsts]; exact hsne), fpBars_keep q bars d hd hb]
    rfl
  · rw [rolling_eq_map _ _ _ _ _ (by rw [hts]; exact hle) hw]
    simp only [List.length_map]
    rw [← hts, List.length_map]
  · have h1 : (((fpBars bars d).filter (fun b => q b.ts)).map FpBar.ts) = d.ts.filter q := by
      rw [← hts, List.filter_map]; rfl
    rw [rolling_eq_map _ _ _ _ _ (by rw [h1]; exact hle.sublist List.filter_sublist) hw, ← h1]
    simp only [List.length_map]
  · have h1 : (((fpBars bars d).filter (fun b => q b.ts)).map FpBar.ts) = d.ts.filter q := by
      rw [← hts, List.filter_map]; rfl
    rw [rolling_eq_map _ _ _ _ _ (by rw [h1]; exact hle.sublist List.filter_sublist) hw,
      rolling_eq_map _ _ _ _ _ (by rw [hts]; exact hle) hw]
    generalize hB : fpBars bars d = B at *
    have hz : ∀ (S : List (FpBar K)) (g : FpBar K → Except String (VpRow K)),
        (S.map FpBar.ts).zip (S.map g) = S.map (fun b => (b.ts, g b)) := by
      intro S g
      induction S with
      | nil => rfl
      | cons b S ih => simp [ih]
    rw [List.map_map, List.map_map, h1, hts]
    generalize hcdef : (d.ts.filter q).headD 0 = c
    conv_lhs => rw [← h1, hz]
    conv_rhs => rw [← hts, hz, List.filter_map, List.map_map]
    refine List.map_congr_left (fun b hbm => ?_)
    obtain ⟨hbB, hbq⟩ := List.mem_filter.mp hbm
    simp only [Function.comp_apply, hts, Prod.mk.injEq, true_and]
    by_cases hc : b.ts < c + p.windowNs
    · rw [if_pos hc, if_pos hc]
      show Except.ok (vpRow d.tick ⟨0, 0, 0, 0⟩) = _
      rw [vpRow_warm]
    · rw [if_neg hc, if_neg hc]
      -- the first selected bar is one of all bars
      obtain ⟨u, us, hu⟩ := List.exists_cons_of_ne_nil hsne
      have hum : u ∈ d.ts.filter q := by rw [hu]; simp
      obtain ⟨hu1, hu2⟩ := List.mem_filter.mp hum
      rw [hu, List.headD_cons] at hcdef
      have hhead : d.ts.headD 0 ≤ u := by
        cases hdt : d.ts with
        | nil => exact absurd hdt hdne
        | cons x xs =>
          rw [hdt] at hle hu1
          rcases List.mem_cons.mp hu1 with rfl | h
          · exact le_refl _
          · exact (List.pairwise_cons.mp hle).1 _ h
      rw [if_neg (by omega)]
      congr 1
      unfold profileAt
      rw [List.filter_filter]
      have : (fun x : FpBar K => (decide (b.ts - p.windowNs ≤ x.ts ∧ x.ts ≤ b.ts) && q x.ts)) =
          (fun x : FpBar K => decide (b.ts - p.windowNs ≤ x.ts ∧ x.ts ≤ b.ts)) := by
        funext x
        by_cases hx : b.ts - p.windowNs ≤ x.ts ∧ x.ts ≤ b.ts
        · have : q x.ts = true := by
            simp only [hq, inRange, decide_eq_true_eq] at hbq hu2 ⊢
            omega
          rw [this, Bool.and_true]
        · rw [decide_eq_false hx, Bool.false_and]
      rw [this]

example : let p : VpParams ℚ := ⟨20, 3, 70⟩
    (plainFp [0, 10, 20, 30, 40]).ts.Pairwise (· < ·) ∧ (∃ t ∈ (plainFp [0, 10, 20, 30, 40]).ts, inRange p (.stamp 30) (.stamp 40) t = true) ∧
    vpComputeRange (fun _ x => Rat.floor x) p ([0, 10, 20, 30, 40].map (fun t => (t, 10, 10)))
    (plainFp [0, 10, 20, 30, 40]) (.stamp 30) (.stamp 40) =
      .ok ([10, 20, 30, 40], [.ok warmRow, .ok warmRow, .ok ⟨some 10, some 10, some 10, 0⟩,
        .ok ⟨some 10, some 10, some 10, 0⟩]) := by decide +kernel

/-- Bars before `start` are returned too, always without a profile. -/
theorem C83_before_start (rnd : K → K → Int) (p : VpParams K) (bars : List (Int × K × K)) (d : FpData K)
    (start stop : DateArg) (hd : d.Aligned) (hs : d.ts.Pairwise (· < ·)) (hb : bars.map Prod.fst = d.ts)
    (hw : 0 ≤ p.windowNs) (ts : List Int) (vals : List (Except String (VpRow K)))
    (h : vpComputeRange rnd p bars d start stop = .ok (ts, vals)) (hty : start.sameType stop = true)
    (hne : ∃ t ∈ d.ts, inRange p start stop t = true) :
    ∀ x ∈ ts.zip vals, x.1 < start.first → x.2 = .ok warmRow := by
  obtain ⟨full, vals', _, h2, _, _, h5⟩ := C83_range rnd p bars d start stop hd hs hb hw hty hne
  rw [h2] at h
  obtain ⟨rfl, rfl⟩ := Prod.mk.inj (Except.ok.inj h)
  intro x hx hlt
  rw [h5, List.mem_map] at hx
  obtain ⟨y, hy, rfl⟩ := hx
  obtain ⟨t, ht, hqt⟩ := hne
  have hsne : d.ts.filter (inRange p start stop) ≠ [] := List.ne_nil_of_mem (List.mem_filter.mpr ⟨ht, hqt⟩)
  obtain ⟨u, us, hu⟩ := List.exists_cons_of_ne_nil hsne
  have hum : u ∈ d.ts.filter (inRange p start stop) := by rw [hu]; simp
  have hu2 := (List.mem_filter.mp hum).2
  simp only [inRange, decide_eq_true_eq] at hu2
  simp only at hlt ⊢
  rw [hu, List.headD_cons, if_pos (by omega)]

example : ((vpComputeRange (fun _ x => Rat.floor x) ⟨20, 3, 70⟩ ([0, 10, 20, 30, 40].map (fun t => (t, 10, 10)))
    (plainFp [0, 10, 20, 30, 40]) (.stamp 30) (.stamp 40)).map (fun r => (r.1.zip r.2).map (fun x => (x.1, decide (x.2 = .ok warmRow))))).toOption =
      some [(10, true), (20, true), (30, false), (40, false)] := by decide +kernel

/-- If a bar closes exactly one window before `start`, every bar from `start` on has the profile of the whole data
set. -/
theorem C83_from_start_partial (rnd : K → K → Int) (p : VpParams K) (bars : List (Int × K × K)) (d : FpData K)
    (start stop : DateArg) (hd : d.Aligned) (hs : d.ts.Pairwise (· < ·)) (hb : bars.map Prod.fst = d.ts)
    (hw : 0 ≤ p.windowNs) (ts : List Int) (vals full : List (Except String (VpRow K)))
    (hfull : vpCompute rnd p bars d = .ok full)
    (h : vpComputeRange rnd p bars d start stop = .ok (ts, vals)) (hty : start.sameType stop = true)
    (hmem : start.first - p.windowNs ∈ d.ts) (hle : start.first - p.windowNs ≤ stop.last) :
    ∀ x ∈ ts.zip vals, start.first ≤ x.1 → x ∈ d.ts.zip full := by
  have hin : inRange p start stop (start.first - p.windowNs) = true := by simp [inRange, hle]
  obtain ⟨full', vals', h1, h2, _, _, h5⟩ := C83_range rnd p bars d start stop hd hs hb hw hty ⟨_, hmem, hin⟩
  rw [h2] at h
  rw [h1] at hfull
  obtain ⟨rfl, rfl⟩ := Prod.mk.inj (Except.ok.inj h)
  have := Except.ok.inj hfull
  subst this
  intro x hx hlt
  rw [h5, List.mem_map] at hx
  obtain ⟨y, hy, rfl⟩ := hx
  have hmem' : start.first - p.windowNs ∈ d.ts.filter (inRange p start stop) := List.mem_filter.mpr ⟨hmem, hin⟩
  have hhead : (d.ts.filter (inRange p start stop)).headD 0 ≤ start.first - p.windowNs := by
    have hso : (d.ts.filter (inRange p start stop)).Pairwise (· < ·) := hs.sublist List.filter_sublist
    cases hl : d.ts.filter (inRange p start stop) with
    | nil => rw [hl] at hmem'; simp at hmem'
    | cons a l =>
      rw [hl] at hmem' hso
      rcases List.mem_cons.mp hmem' with h | h
      · rw [List.headD_cons]; omega
      · have := (List.pairwise_cons.mp hso).1 _ h
        rw [List.headD_cons]; omega
  simp only at hlt ⊢
  rw [if_neg (by omega)]
  exact (List.mem_filter.mp hy).1

example : (30 : Int) - 20 ∈ (plainFp [0, 10, 20, 30, 40]).ts ∧
    (vpCompute (fun _ x => Rat.floor x) ⟨20, 3, 70⟩ ([0, 10, 20, 30, 40].map (fun t => (t, 10, 10))) (plainFp [0, 10, 20, 30, 40])).isOk = true ∧
    (vpComputeRange (fun _ x => Rat.floor x) ⟨20, 3, 70⟩ ([0, 10, 20, 30, 40].map (fun t => (t, 10, 10)))
    (plainFp [0, 10, 20, 30, 40]) (.stamp 30) (.stamp 40)).isOk = true := by decide +kernel

theorem length_flatMap_filter (bars : List (Int × K × K)) : ∀ (L : List Int), (∀ l ∈ L, ∃ b ∈ bars, b.1 = l) →
    (∃ l ∈ L, 2 ≤ (bars.filter (fun b => decide (b.1 = l))).length) →
    L.length < (L.flatMap (fun l => bars.filter (fun b => decide (b.1 = l)))).length := by
  have one : ∀ l, (∃ b ∈ bars, b.1 = l) → 1 ≤ (bars.filter (fun b => decide (b.1 = l))).length := by
    rintro l ⟨b, hb, rfl⟩
    exact List.length_pos_of_mem (List.mem_filter.mpr ⟨hb, by simp⟩)
  have ge : ∀ (L : List Int), (∀ l ∈ L, ∃ b ∈ bars, b.1 = l) →
      L.length ≤ (L.flatMap (fun l => bars.filter (fun b => decide (b.1 = l)))).length := by
    intro L
    induction L with
    | nil => intro _; simp
    | cons l L ih =>
      intro h
      rw [List.flatMap_cons, List.length_append, List.length_cons]
      have := one l (h l (by simp))
      have := ih (fun x hx => h x (by simp [hx]))
      omega
  intro L
  induction L with
  | nil => rintro _ ⟨l, hl, _⟩; simp at hl
  | cons l L ih =>
    rintro h ⟨m, hm, h2⟩
    rw [List.flatMap_cons, List.length_append, List.length_cons]
    have h1 := one l (h l (by simp))
    rcases List.mem_cons.mp hm with rfl | hm
    · have := ge L (fun x hx => h x (by simp [hx]))
      omega
    · have := ih (fun x hx => h x (by simp [hx])) ⟨m, hm, h2⟩
      omega

/-- Violation: if two bars of the range close at the same time (as dollar or CUSUM bars may), the label lookup returns
each of them twice and `compute_range` fails, although the whole data set is computed without complaint. -/
theorem C83_equal_times_fail (rnd : K → K → Int) (p : VpParams K) (bars : List (Int × K × K)) (d : FpData K)
    (start stop : DateArg) (hd : d.Aligned) (hs : d.ts.Pairwise (· ≤ ·)) (hb : bars.map Prod.fst = d.ts)
    (hty : start.sameType stop = true) (t : Int) (hdup : 2 ≤ d.ts.count t) (hin : inRange p start stop t = true) :
    vpComputeRange rnd p bars d start stop = .error "Bars and footprint data should have the same length." ∧
      ∃ full, vpCompute rnd p bars d = .ok full := by
  have hlen : bars.length = d.ts.length := by rw [← hb, List.length_map]
  have htm : t ∈ d.ts := List.count_pos_iff.mp (by omega)
  have hdne : d.ts ≠ [] := List.ne_nil_of_mem htm
  refine ⟨?_, _, vpCompute_ok rnd p bars d hd hlen hdne⟩
  set q := inRange p start stop with hq
  have hget : d.get (.dates (start.first - p.windowNs, start.first - p.windowNs) (stop.first, stop.last)) =
      .ok (.inl (d.mapCols (keepCol q d.ts))) := C75_dates d hd hs _ _
  have hsts : (d.mapCols (keepCol q d.ts)).ts = d.ts.filter q := by
    show keepCol q d.ts d.ts = _
    rw [keepCol_filter q (fun t => t) d.ts d.ts (by simp)]
  have hlab : ∀ l ∈ d.ts.filter q, ∃ b ∈ bars, b.1 = l := by
    intro l hl
    have := (List.mem_filter.mp hl).1
    rw [← hb, List.mem_map] at this
    exact this
  have hcount : (bars.filter (fun b => decide (b.1 = t))).length = d.ts.count t := by
    rw [← hb, List.count_eq_length_filter, List.filter_map, List.length_map]
    congr 1
  have hlt := length_flatMap_filter bars (d.ts.filter q) hlab
    ⟨t, List.mem_filter.mpr ⟨htm, hin⟩, by rw [hcount]; exact hdup⟩
  unfold vpComputeRange
  rw [if_neg (by simpa using hlen), hty, if_neg (by simp)]
  dsimp only
  rw [hget]
  dsimp only
  rw [hsts]
  unfold locRows
  rw [if_pos]
  · dsimp only
    unfold vpCompute
    rw [if_pos (by rw [hsts]; omega)]
  · rw [List.all_eq_true]
    intro l hl
    obtain ⟨b, hb1, hb2⟩ := hlab l hl
    rw [List.any_eq_true]
    exact ⟨b, hb1, by simp [hb2]⟩

example : (plainFp [0, 10, 10]).ts.count 10 = 2 ∧ inRange (⟨5, 3, 70⟩ : VpParams ℚ) (.stamp 5) (.stamp 40) 10 = true ∧
    vpComputeRange (fun _ x => Rat.floor x) ⟨5, 3, 70⟩ ([0, 10, 10].map (fun t => (t, 10, 10)))
      (plainFp [0, 10, 10]) (.stamp 5) (.stamp 40) = .error "Bars and footprint data should have the same length." := by
  decide +kernel

/-! ### Examples -/

/-- Violation: the extra window does not remove the warm-up.  With bars every 10 and a window of 15 the bar at the
start, 30, has a profile in the whole data set but none in the range from 30. -/
theorem C83_warmup_remains :
    ∃ full vals, vpCompute (fun _ x => Rat.floor x) ⟨15, 3, 70⟩ ([0, 10, 20, 30, 40].map (fun t => (t, 10, 10)))
        (plainFp [0, 10, 20, 30, 40]) = .ok full ∧
      vpComputeRange (fun _ x => Rat.floor x) ⟨15, 3, 70⟩ ([0, 10, 20, 30, 40].map (fun t => (t, 10, 10)))
        (plainFp [0, 10, 20, 30, 40]) (.int 30) (.int 40) = .ok ([20, 30, 40], vals) ∧
      full[3]? = some (.ok ⟨some 10, some 10, some 10, 0⟩) ∧ vals[1]? = some (.ok warmRow) :=
  ⟨_, _, rfl, rfl, by decide +kernel, by decide +kernel⟩

/-- Non-vacuity of `C83_range` and `C83_from_start_partial`: the bar at 10 closes one window before the start. -/
example : vpComputeRange (fun _ x => Rat.floor x) ⟨20, 3, 70⟩ ([0, 10, 20, 30, 40].map (fun t => (t, 10, 10)))
    (plainFp [0, 10, 20, 30, 40]) (.stamp 30) (.stamp 40) =
      .ok ([10, 20, 30, 40], [.ok warmRow, .ok warmRow, .ok ⟨some 10, some 10, some 10, 0⟩,
        .ok ⟨some 10, some 10, some 10, 0⟩]) := by decide +kernel

/-- Non-vacuity of `C83_equal_times_fail`. -/
example : (plainFp [0, 10, 10]).Aligned ∧ (plainFp [0, 10, 10]).ts.count 10 = 2 ∧
    vpComputeRange (fun _ x => Rat.floor x) ⟨5, 3, 70⟩ ([0, 10, 10].map (fun t => (t, 10, 10)))
      (plainFp [0, 10, 10]) (.stamp 5) (.stamp 40) = .error "Bars and footprint data should have the same length." := by
  refine ⟨?_, by decide +kernel, by decide +kernel⟩
  simp [FpData.Aligned, plainFp]

end FinML

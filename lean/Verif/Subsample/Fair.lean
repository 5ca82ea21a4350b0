import Verif.Subsample.Props
import Mathlib.MeasureTheory.Measure.Prod
import Mathlib.MeasureTheory.Integral.Bochner.Set
import Mathlib.MeasureTheory.Integral.IntegrableOn

/-! C301: with ideal random numbers all rows of an hour have the same chance to be kept. -/

namespace PyF.Subsample
open PyF Spec MeasureTheory

/-- All sets of lists of positions are events. -/
local instance : MeasurableSpace (List ℕ) := ⊤

/-- An ideal generator: the state is random, each draw is independent of the state left behind, which has the same distribution again; in `choice` without replacement all positions have the same
chance. Nothing is assumed about the distribution of `multinomial`. -/
structure Ideal {G : Type} [MeasurableSpace G] (R : Rng G) (μ : Measure G) : Prop where
  lawful : R.Lawful
  meas : ∀ pos k, Measurable (fun g => R.choice g pos k)
  meas_m : ∀ m c, Measurable (fun g => R.multinomial g m c)
  choice : ∀ pos k, pos.Nodup → k ≤ pos.length → ∃ ν : Measure (List ℕ), IsProbabilityMeasure ν ∧ μ.map (fun g => R.choice g pos k) = ν.prod μ ∧
    ∀ p ∈ pos, ν.real {l | p ∈ l} = k / pos.length
  multinomial : ∀ m c, ∃ ν : Measure (List ℕ), IsProbabilityMeasure ν ∧ μ.map (fun g => R.multinomial g m c) = ν.prod μ

section
variable {ι G : Type} [LinearOrder ι] [MeasurableSpace G]

theorem choice_measure {R : Rng G} {μ : Measure G} [IsProbabilityMeasure μ] (hI : Ideal R μ) (pos : List ℕ) (k : ℕ) (hn : pos.Nodup) (hk : k ≤ pos.length) (p : ℕ) (hp : p ∈ pos) :
    μ.real {g | p ∈ (R.choice g pos k).1} = k / pos.length := by
  obtain ⟨ν, hν, h1, h2⟩ := hI.choice pos k hn hk
  have hE : MeasurableSet ({l : List ℕ | p ∈ l} ×ˢ (Set.univ : Set G)) := MeasurableSet.prod trivial MeasurableSet.univ
  have h3 : (μ.map (fun g => R.choice g pos k)).real ({l : List ℕ | p ∈ l} ×ˢ (Set.univ : Set G)) = (ν.prod μ).real ({l : List ℕ | p ∈ l} ×ˢ (Set.univ : Set G)) := by rw [h1]
  rw [map_measureReal_apply (hI.meas pos k) hE, measureReal_prod_prod, h2 p hp, probReal_univ, mul_one] at h3
  rw [← h3]
  congr 1
  ext g
  simp

theorem choice_rest {R : Rng G} {μ : Measure G} [IsProbabilityMeasure μ] (hI : Ideal R μ) (pos : List ℕ) (k : ℕ) (hn : pos.Nodup) (hk : k ≤ pos.length) (E : Set G) (hE : MeasurableSet E) :
    μ.real {g | (R.choice g pos k).2 ∈ E} = μ.real E := by
  obtain ⟨ν, hν, h1, h2⟩ := hI.choice pos k hn hk
  have h3 : (μ.map (fun g => R.choice g pos k)).real ((Set.univ : Set (List ℕ)) ×ˢ E) = (ν.prod μ).real ((Set.univ : Set (List ℕ)) ×ˢ E) := by rw [h1]
  rw [map_measureReal_apply (hI.meas pos k) (MeasurableSet.univ.prod hE), measureReal_prod_prod, probReal_univ, one_mul] at h3
  rw [← h3]
  congr 1
  ext g
  simp

/-- The event that position `i` is selected from the strata. -/
def Sel (R : Rng G) (hours : List ℕ) (L : List (ℕ × ℕ)) (i : ℕ) : Set G := {g | i ∈ (selectLoop R hours g L).1.flatten}

theorem sel_meas {R : Rng G} {μ : Measure G} (hI : Ideal R μ) (hours : List ℕ) (L : List (ℕ × ℕ)) (i : ℕ) : MeasurableSet (Sel R hours L i) := by
  induction L with
  | nil => simp [Sel, selectLoop]
  | cons e L ih =>
    obtain ⟨h, c⟩ := e
    unfold Sel at ih ⊢
    unfold selectLoop
    simp only
    split_ifs with h1 h2
    · exact ih
    · exact ih
    · have h3 : {g | i ∈ (((R.choice g (positionsOf hours h) (min c (positionsOf hours h).length)).1 ::
          (selectLoop R hours (R.choice g (positionsOf hours h) (min c (positionsOf hours h).length)).2 L).1)).flatten} =
          (fun g => R.choice g (positionsOf hours h) (min c (positionsOf hours h).length)) ⁻¹'
            (({l : List ℕ | i ∈ l} ×ˢ (Set.univ : Set G)) ∪ ((Set.univ : Set (List ℕ)) ×ˢ {g | i ∈ (selectLoop R hours g L).1.flatten})) := by
        ext g
        simp
      rw [h3]
      exact hI.meas _ _ ((MeasurableSet.prod (show MeasurableSet {l : List ℕ | i ∈ l} from trivial) MeasurableSet.univ).union (MeasurableSet.univ.prod ih))

/-- Chance of being selected, by stratum. -/
theorem sel_prob {R : Rng G} {μ : Measure G} [IsProbabilityMeasure μ] (hI : Ideal R μ) (hours : List ℕ) (L : List (ℕ × ℕ)) (hnd : (L.map Prod.fst).Nodup)
    (i h : ℕ) (hi : hours[i]? = some h) : μ.real (Sel R hours L i) = (min ((L.lookup h).getD 0) (hours.count h) : ℕ) / (hours.count h : ℝ) := by
  have hnone : ∀ L : List (ℕ × ℕ), h ∉ L.map Prod.fst → ∀ g, i ∉ (selectLoop R hours g L).1.flatten := by
    intro L
    induction L with
    | nil => intro _ g; simp [selectLoop]
    | cons e L ih =>
      obtain ⟨h', c⟩ := e
      intro hL g
      simp only [List.map_cons, List.mem_cons, not_or] at hL
      unfold selectLoop
      simp only
      split_ifs with h1 h2
      · exact ih hL.2 g
      · exact ih hL.2 g
      · rw [List.flatten_cons, List.mem_append, not_or]
        refine ⟨fun hm => ?_, ih hL.2 _⟩
        have := (hI.lawful.choice_subperm g (positionsOf hours h') _ (Nat.min_le_right _ _)).subset hm
        rw [mem_positionsOf, hi] at this
        exact hL.1 (Option.some.inj this)
  induction L with
  | nil => simp [Sel, selectLoop]
  | cons e L ih =>
    obtain ⟨h', c⟩ := e
    rw [List.map_cons, List.nodup_cons] at hnd
    have ih := ih hnd.2
    have hmeas := sel_meas hI hours L i
    by_cases hh : h = h'
    · subst hh
      have hrest := hnone L hnd.1
      rw [List.lookup_cons_self, Option.getD_some]
      unfold Sel selectLoop
      simp only
      rw [positionsOf_length]
      split_ifs with h1 h2
      · have e1 : {g : G | i ∈ (selectLoop R hours g L).1.flatten} = ∅ := by
          ext g; simpa using hrest g
        rw [e1, h1]
        simp
      · have e1 : {g : G | i ∈ (selectLoop R hours g L).1.flatten} = ∅ := by
          ext g; simpa using hrest g
        rw [e1, h2]
        simp
      · have hk : min c (hours.count h) ≤ (positionsOf hours h).length := by rw [positionsOf_length]; exact Nat.min_le_right _ _
        have h3 := choice_measure hI (positionsOf hours h) (min c (hours.count h)) (positionsOf_nodup _ _) hk i (mem_positionsOf.2 hi)
        rw [positionsOf_length] at h3
        rw [← h3]
        congr 1
        ext g
        simp only [Set.mem_ofPred_eq, List.flatten_cons, List.mem_append]
        exact ⟨fun h => h.resolve_right (hrest _), Or.inl⟩
    · have hl : ((h', c) :: L).lookup h = L.lookup h := by
        rw [List.lookup_cons]
        have : (h == h') = false := by simpa using hh
        rw [this]
      rw [hl, ← ih]
      conv_lhs => unfold Sel selectLoop
      simp only
      split_ifs with h1 h2
      · rfl
      · rfl
      · have hk := Nat.min_le_right c (positionsOf hours h').length
        rw [← choice_rest hI (positionsOf hours h') _ (positionsOf_nodup _ _) hk _ hmeas]
        congr 1
        ext g
        simp only [Set.mem_ofPred_eq, List.flatten_cons, List.mem_append, Sel]
        refine ⟨fun hm => hm.resolve_left fun hm => ?_, Or.inr⟩
        have := (hI.lawful.choice_subperm g (positionsOf hours h') _ hk).subset hm
        rw [mem_positionsOf, hi] at this
        exact hh (Option.some.inj this)

/-- The allocation as a function of the multinomial draw, L136-151. -/
def allocOf (counts : List ℕ) (m : ℕ) (d : List ℕ) : List ℕ :=
  (fillLoop counts (m - (List.zipWith min d counts).sum) (List.zipWith min d counts)).getD []

omit [MeasurableSpace G] in
/-- The positions kept are those the strata select. -/
theorem stratified_sel (hour : ι → Nat) {R : Rng G} (hR : R.Lawful) (g : G) (idx : List ι) (m : Nat) (hm : m < idx.length) (hu : (npUnique (idx.map hour)).length ≤ m) :
    ∃ xs ys, stratified hour R g idx (List.range idx.length) (List.range idx.length) m = .ok (xs, ys) ∧
      xs.Perm (selectLoop R (idx.map hour) (R.multinomial g m ((npUnique (idx.map hour)).map fun h => (idx.map hour).count h)).2
        ((npUnique (idx.map hour)).zip (allocOf ((npUnique (idx.map hour)).map fun h => (idx.map hour).count h) m
          (R.multinomial g m ((npUnique (idx.map hour)).map fun h => (idx.map hour).count h)).1))).1.flatten := by
  set hours := idx.map hour with hhours
  set u := npUnique hours with hudef
  set counts := u.map (fun h => hours.count h) with hcounts
  have hupos : u.length ≠ 0 := by
    intro h0
    have : u = [] := List.length_eq_zero_iff.1 h0
    cases hidx : idx with
    | nil => rw [hidx] at hm; simp at hm
    | cons i l =>
      have : hour i ∈ u := mem_npUnique.2 (by rw [hhours, hidx]; simp)
      simp_all
  have hcsum : counts.sum = idx.length := by
    have h1 : counts.Perm (hours.dedup.map (fun h => hours.count h)) := (npUnique_perm hours).map _
    rw [h1.sum_eq, List.sum_map_count_dedup_eq_length, hhours, List.length_map]
  set mn := R.multinomial g m counts with hmn
  have hmnl : mn.1.length = counts.length := hR.multinomial_length _ _ _
  have hmns : mn.1.sum = m := hR.multinomial_sum _ _ _ (by omega)
  set a0 := List.zipWith min mn.1 counts with ha0
  have ha0l : a0.length = counts.length := by simp [ha0, hmnl]
  have ha0c : List.Forall₂ (· ≤ ·) a0 counts := by
    apply forall₂_le_of_getElem ha0l
    intro i h1 h2
    simp only [ha0, List.getElem_zipWith]
    exact Nat.min_le_right _ _
  have ha0m : List.Forall₂ (· ≤ ·) a0 mn.1 := by
    apply forall₂_le_of_getElem (by omega)
    intro i h1 h2
    simp only [ha0, List.getElem_zipWith]
    exact Nat.min_le_left _ _
  have ha0s : a0.sum ≤ m := by
    rw [← hmns]
    exact ha0m.sum_le_sum
  obtain ⟨al, hf, hal0, halc, hals⟩ := fillLoop_spec counts (m - a0.sum) a0 ha0c (by omega)
  have halm : al.sum = m := by omega
  have hall : al.length = u.length := by rw [halc.length_eq, hcounts, List.length_map]
  have hal : allocOf counts m mn.1 = al := by
    unfold allocOf
    rw [← ha0, hf]
    rfl
  have hL1 : (u.zip al).map Prod.fst = u := List.map_fst_zip (by omega)
  have hL2 : (u.zip al).map Prod.snd = al := List.map_snd_zip (by omega)
  have hcapL : ∀ e ∈ u.zip al, e.2 ≤ hours.count e.1 := by
    intro e he
    obtain ⟨i, hi, rfl⟩ := List.mem_iff_getElem.1 he
    have hi1 : i < u.length := by rw [List.length_zip] at hi; omega
    have := forall₂_le_getElem halc i (by omega) (by rw [hcounts, List.length_map]; exact hi1)
    simp only [List.getElem_zip]
    simpa [hcounts] using this
  rw [hal]
  obtain ⟨s1, s2, s3, s4⟩ := selectLoop_spec hR hours (u.zip al) mn.2
    (by rw [hL1]; exact npUnique_nodup _) hcapL
  set sel := selectLoop R hours mn.2 (u.zip al) with hsel
  rw [hL2, halm] at s4
  have hne : sel.1.isEmpty = false := by
    cases hs : sel.1 with
    | nil => rw [hs] at s4; simp at s4; omega
    | cons a l => rfl
  have hhl : hours.length = idx.length := by rw [hhours, List.length_map]
  have hlt : ∀ p ∈ sel.1.flatten, p < idx.length := by
    intro p hp
    obtain ⟨e, _, he⟩ := s2 p hp
    by_contra hc
    rw [List.getElem?_eq_none (by omega)] at he
    cases he
  obtain ⟨pos2, xs, ys, h1, h2, h3, h4, h5⟩ := orderRows_spec idx (List.range idx.length) (List.range idx.length) _ s1 hlt (by simpa using hlt) (by simpa using hlt)
  have hx : pos2 = xs := by
    have e : pos2.map (fun p => (List.range idx.length)[p]?) = pos2.map some := by
      refine List.map_congr_left fun p hp => ?_
      exact List.getElem?_range (hlt p (h5.1.mem_iff.1 hp))
    have h2' : pos2.map some = xs.map some := by rw [← e]; exact h2
    exact List.map_injective_iff.2 (Option.some_injective _) h2'
  refine ⟨xs, ys, ?_, hx ▸ h5.1⟩
  unfold stratified
  simp only [← hhours, ← hudef, ← hcounts, ← hmn, ← ha0]
  rw [if_neg (by rw [List.length_range]; omega), if_neg (by omega), hf]
  simp only [trimLoop_of_le m al.sum al (by omega), ← hsel, hne]
  rw [if_neg (by simp), if_neg (by omega), h1]

omit [MeasurableSpace G] in
theorem uniform_sel {R : Rng G} (hR : R.Lawful) (g : G) (idx : List ι) (m : Nat) (hm : m ≤ idx.length) :
    ∃ xs ys, uniform R g idx (List.range idx.length) (List.range idx.length) m = .ok (xs, ys) ∧ xs.Perm (R.choice g (List.range idx.length) m).1 := by
  have hl : m ≤ (List.range idx.length).length := by simpa using hm
  have hs := hR.choice_subperm g (List.range idx.length) m hl
  have hnd : (R.choice g (List.range idx.length) m).1.Nodup := by
    obtain ⟨l, hl1, hl2⟩ := hs
    exact hl1.nodup_iff.1 (List.nodup_range.sublist hl2)
  have hlt : ∀ p ∈ (R.choice g (List.range idx.length) m).1, p < idx.length := fun p hp => List.mem_range.1 (hs.subset hp)
  obtain ⟨pos2, xs, ys, h1, h2, h3, h4, h5⟩ := orderRows_spec idx (List.range idx.length) (List.range idx.length) _ hnd hlt (by simpa using hlt) (by simpa using hlt)
  have hx : pos2 = xs := by
    have e : pos2.map (fun p => (List.range idx.length)[p]?) = pos2.map some := by
      refine List.map_congr_left fun p hp => ?_
      exact List.getElem?_range (hlt p (h5.1.mem_iff.1 hp))
    have h2' : pos2.map some = xs.map some := by rw [← e]; exact h2
    exact List.map_injective_iff.2 (Option.some_injective _) h2'
  refine ⟨xs, ys, ?_, hx ▸ h5.1⟩
  unfold uniform
  rw [List.length_range, if_neg (by omega), h1]

theorem zip_fst_sublist (a b : List ℕ) : ((a.zip b).map Prod.fst).Sublist a := by
  induction a generalizing b with
  | nil => simp
  | cons x a ih =>
    cases b with
    | nil => simp
    | cons y b => simpa using ih b

/-- The generator `R` started in state `g` whatever the seed. -/
def started (R : Rng G) (g : G) : Rng G := { R with seed := fun _ => g }

omit [MeasurableSpace G] in
theorem started_selectLoop (R : Rng G) (g0 : G) (hours : List ℕ) (L : List (ℕ × ℕ)) (g : G) : selectLoop (started R g0) hours g L = selectLoop R hours g L := by
  induction L generalizing g with
  | nil => rfl
  | cons e L ih =>
    obtain ⟨h, c⟩ := e
    unfold selectLoop
    simp only [ih]
    rfl

omit [MeasurableSpace G] in
theorem started_stratified (hour : ι → Nat) (R : Rng G) (g0 g : G) (idx : List ι) (x y : List ℕ) (m : ℕ) : stratified hour (started R g0) g idx x y m = stratified hour R g idx x y m := by
  unfold stratified
  simp only [started_selectLoop]
  rfl

/-- Specification: the states in which the row at position `i` of a frame with index `idx` is kept when the cap is `m` (the rows are labelled with their positions). -/
def Kept (hour : ι → Nat) (R : Rng G) (m : ℕ) (dt : Bool) (idx : List ι) (i : ℕ) : Set G :=
  {g | ∃ xs ys, maybeSubsample hour (started R g) (some m) none none dt ⟨idx, List.range idx.length⟩ ⟨idx, List.range idx.length⟩ = .ok (xs, ys) ∧ i ∈ xs}

omit [MeasurableSpace G] in
theorem kept_strat (hour : ι → Nat) {R : Rng G} (hR : R.Lawful) (m : ℕ) (idx : List ι) (hm : m < idx.length) (hu : (npUnique (idx.map hour)).length ≤ m) (i : ℕ) :
    Kept hour R m true idx i = (fun g => R.multinomial g m ((npUnique (idx.map hour)).map fun h => (idx.map hour).count h)) ⁻¹'
      {p : List ℕ × G | p.2 ∈ Sel R (idx.map hour) ((npUnique (idx.map hour)).zip (allocOf ((npUnique (idx.map hour)).map fun h => (idx.map hour).count h) m p.1)) i} := by
  ext g
  obtain ⟨xs, ys, h1, h2⟩ := stratified_sel hour hR g idx m hm hu
  have h3 : maybeSubsample hour (started R g) (some m) none none true ⟨idx, List.range idx.length⟩ ⟨idx, List.range idx.length⟩ = .ok (xs, ys) := by
    unfold maybeSubsample
    simp only [List.length_range, ne_eq, not_true_eq_false, if_false, if_true]
    rw [if_neg (by omega), started_stratified]
    exact h1
  unfold Kept
  simp only [Set.mem_ofPred_eq, Set.mem_preimage, h3, Except.ok.injEq, Prod.mk.injEq, Sel]
  rw [← h2.mem_iff]
  constructor
  · rintro ⟨a, b, ⟨rfl, rfl⟩, h⟩
    exact h
  · intro h
    exact ⟨xs, ys, ⟨rfl, rfl⟩, h⟩

omit [MeasurableSpace G] in
theorem kept_unif (hour : ι → Nat) {R : Rng G} (hR : R.Lawful) (m : ℕ) (idx : List ι) (hm : m < idx.length) (dt : Bool) (hd : dt = false ∨ m < (npUnique (idx.map hour)).length) (i : ℕ) :
    Kept hour R m dt idx i = {g | i ∈ (R.choice g (List.range idx.length) m).1} := by
  ext g
  obtain ⟨xs, ys, h1, h2⟩ := uniform_sel hR g idx m hm.le
  have h3 : maybeSubsample hour (started R g) (some m) none none dt ⟨idx, List.range idx.length⟩ ⟨idx, List.range idx.length⟩ = .ok (xs, ys) := by
    unfold maybeSubsample
    simp only [List.length_range, ne_eq, not_true_eq_false, if_false]
    rw [if_neg (by omega)]
    cases dt with
    | false => exact h1
    | true =>
      have hu : m < (npUnique (idx.map hour)).length := by simpa using hd
      simp only [if_true]
      rw [started_stratified]
      unfold stratified
      simp only [List.length_range]
      rw [if_neg (by omega), if_pos hu]
      exact h1
  unfold Kept
  simp only [Set.mem_ofPred_eq, h3, Except.ok.injEq, Prod.mk.injEq]
  rw [← h2.mem_iff]
  constructor
  · rintro ⟨a, b, ⟨rfl, rfl⟩, h⟩
    exact h
  · intro h
    exact ⟨xs, ys, ⟨rfl, rfl⟩, h⟩

theorem sel_set_meas {R : Rng G} {μ : Measure G} (hI : Ideal R μ) (hours : List ℕ) (f : List ℕ → List (ℕ × ℕ)) (i : ℕ) :
    MeasurableSet {p : List ℕ × G | p.2 ∈ Sel R hours (f p.1) i} := by
  have h : {p : List ℕ × G | p.2 ∈ Sel R hours (f p.1) i} = ⋃ d : List ℕ, ({d} : Set (List ℕ)) ×ˢ Sel R hours (f d) i := by
    ext p
    simp
  rw [h]
  exact MeasurableSet.iUnion fun d => MeasurableSet.prod (show MeasurableSet ({d} : Set (List ℕ)) from trivial) (sel_meas hI hours (f d) i)

/-- C301 (same hour): of a frame with time stamps, two rows of the same hour have the same chance to be kept. -/
theorem C301_same_hour (hour : ι → Nat) (R : Rng G) (μ : Measure G) [IsProbabilityMeasure μ] (hI : Ideal R μ) (m : ℕ) (idx : List ι) (hm : m < idx.length) (dt : Bool)
    (i j : ℕ) (a b : ι) (hi : idx[i]? = some a) (hj : idx[j]? = some b) (hab : hour a = hour b) :
    μ.real (Kept hour R m dt idx i) = μ.real (Kept hour R m dt idx j) := by
  by_cases hd : dt = false ∨ m < (npUnique (idx.map hour)).length
  · have hn : (List.range idx.length).Nodup := List.nodup_range
    have hl : m ≤ (List.range idx.length).length := by rw [List.length_range]; omega
    rw [kept_unif hour hI.lawful m idx hm dt hd i, kept_unif hour hI.lawful m idx hm dt hd j,
      choice_measure hI _ m hn hl i (List.mem_range.2 (List.getElem?_eq_some_iff.1 hi).1), choice_measure hI _ m hn hl j (List.mem_range.2 (List.getElem?_eq_some_iff.1 hj).1)]
  · rw [not_or] at hd
    have hdt : dt = true := by simpa using hd.1
    subst hdt
    have hu := not_lt.1 hd.2
    obtain ⟨ν, hν, h1⟩ := hI.multinomial m ((npUnique (idx.map hour)).map fun h => (idx.map hour).count h)
    rw [kept_strat hour hI.lawful m idx hm hu i, kept_strat hour hI.lawful m idx hm hu j]
    rw [← map_measureReal_apply (hI.meas_m _ _) (sel_set_meas hI (idx.map hour) (fun d => (npUnique (idx.map hour)).zip (allocOf ((npUnique (idx.map hour)).map fun h => (idx.map hour).count h) m d)) i), ← map_measureReal_apply (hI.meas_m _ _) (sel_set_meas hI (idx.map hour) (fun d => (npUnique (idx.map hour)).zip (allocOf ((npUnique (idx.map hour)).map fun h => (idx.map hour).count h) m d)) j), h1]
    unfold Measure.real
    congr 1
    rw [Measure.prod_apply (sel_set_meas hI (idx.map hour) (fun d => (npUnique (idx.map hour)).zip (allocOf ((npUnique (idx.map hour)).map fun h => (idx.map hour).count h) m d)) i), Measure.prod_apply (sel_set_meas hI (idx.map hour) (fun d => (npUnique (idx.map hour)).zip (allocOf ((npUnique (idx.map hour)).map fun h => (idx.map hour).count h) m d)) j)]
    refine lintegral_congr fun d => ?_
    have hnd : (((npUnique (idx.map hour)).zip (allocOf ((npUnique (idx.map hour)).map fun h => (idx.map hour).count h) m d)).map Prod.fst).Nodup := by
      exact (npUnique_nodup (idx.map hour)).sublist (zip_fst_sublist _ _)
    have e1 := sel_prob hI (idx.map hour) _ hnd i (hour a) (by rw [List.getElem?_map, hi]; rfl)
    have e2 := sel_prob hI (idx.map hour) _ hnd j (hour a) (by rw [List.getElem?_map, hj, hab]; rfl)
    rw [← e2] at e1
    unfold Measure.real at e1
    exact (ENNReal.toReal_eq_toReal_iff' (measure_ne_top _ _) (measure_ne_top _ _)).1 e1

/-- C301 (uniform): without time stamps, or with fewer rows to keep than hours present, every row has the chance `m / n`. -/
theorem C301_uniform (hour : ι → Nat) (R : Rng G) (μ : Measure G) [IsProbabilityMeasure μ] (hI : Ideal R μ) (m : ℕ) (idx : List ι) (hm : m < idx.length) (dt : Bool)
    (hd : dt = false ∨ m < (idx.map hour).dedup.length) (i : ℕ) (hi : i < idx.length) : μ.real (Kept hour R m dt idx i) = m / idx.length := by
  have hd' : dt = false ∨ m < (npUnique (idx.map hour)).length := by rw [(npUnique_perm _).length_eq]; exact hd
  rw [kept_unif hour hI.lawful m idx hm dt hd' i, choice_measure hI _ m List.nodup_range (by rw [List.length_range]; omega) i (List.mem_range.2 hi), List.length_range]

theorem kept_meas (hour : ι → Nat) (R : Rng G) (μ : Measure G) (hI : Ideal R μ) (m : ℕ) (idx : List ι) (hm : m < idx.length) (dt : Bool) (i : ℕ) :
    MeasurableSet (Kept hour R m dt idx i) := by
  by_cases hd : dt = false ∨ m < (npUnique (idx.map hour)).length
  · rw [kept_unif hour hI.lawful m idx hm dt hd i]
    have := hI.meas (List.range idx.length) m (MeasurableSet.prod (show MeasurableSet {l : List ℕ | i ∈ l} from trivial) (MeasurableSet.univ (α := G)))
    convert this using 1
    ext g
    simp
  · rw [not_or] at hd
    have hdt : dt = true := by simpa using hd.1
    subst hdt
    rw [kept_strat hour hI.lawful m idx hm (not_lt.1 hd.2) i]
    exact hI.meas_m _ _ (sel_set_meas hI (idx.map hour) (fun d => (npUnique (idx.map hour)).zip (allocOf ((npUnique (idx.map hour)).map fun h => (idx.map hour).count h) m d)) i)

/-- C301 (total): the chances of all rows add up to the cap; so the average chance is `m / n`. -/
theorem C301_total (hour : ι → Nat) (R : Rng G) (μ : Measure G) [IsProbabilityMeasure μ] (hI : Ideal R μ) (m : ℕ) (idx : List ι) (hm : m < idx.length) (dt : Bool) :
    ∑ i ∈ Finset.range idx.length, μ.real (Kept hour R m dt idx i) = m := by
  have h1 : ∀ i ∈ Finset.range idx.length, μ.real (Kept hour R m dt idx i) = ∫ g, (Kept hour R m dt idx i).indicator (fun _ => (1 : ℝ)) g ∂μ := by
    intro i _
    rw [integral_indicator_const _ (kept_meas hour R μ hI m idx hm dt i)]
    simp
  rw [Finset.sum_congr rfl h1, ← integral_finsetSum _ (fun i _ => Integrable.indicator (integrable_const (1 : ℝ)) (kept_meas hour R μ hI m idx hm dt i))]
  have h2 : ∀ g, ∑ i ∈ Finset.range idx.length, (Kept hour R m dt idx i).indicator (fun _ => (1 : ℝ)) g = m := by
    intro g
    have hlaw : (started R g).Lawful := ⟨hI.lawful.1, hI.lawful.2, hI.lawful.3, hI.lawful.4⟩
    obtain ⟨pos, xs, ys, e1, e2, e3, _, e5, _, _⟩ := C01_row_cap_exact hour hlaw m none none dt (⟨idx, List.range idx.length⟩ : Frame ι ℕ) (⟨idx, List.range idx.length⟩ : Frame ι ℕ) (by simp) (by simp) rfl
    have hx : pos = xs := by
      have hlt : ∀ p ∈ pos, p < idx.length := by
        intro p hp
        by_contra hc
        have h4 : (List.range idx.length)[p]? ∈ xs.map some := by rw [← e5]; exact List.mem_map.2 ⟨p, hp, rfl⟩
        rw [List.getElem?_eq_none (by rw [List.length_range]; omega)] at h4
        simp at h4
      have e : pos.map (fun p => (List.range idx.length)[p]?) = pos.map some := List.map_congr_left fun p hp => List.getElem?_range (hlt p hp)
      have h2' : pos.map some = xs.map some := by rw [← e]; exact e5
      exact List.map_injective_iff.2 (Option.some_injective _) h2'
    subst hx
    have hmem : ∀ i, g ∈ Kept hour R m dt idx i ↔ i ∈ pos := by
      intro i
      unfold Kept
      simp only [Set.mem_ofPred_eq, e1, Except.ok.injEq, Prod.mk.injEq]
      constructor
      · rintro ⟨a, b, ⟨rfl, rfl⟩, h⟩; exact h
      · intro h; exact ⟨pos, ys, ⟨rfl, rfl⟩, h⟩
    have hsub : pos.toFinset ⊆ Finset.range idx.length := by
      intro p hp
      rw [List.mem_toFinset] at hp
      by_contra hc
      rw [Finset.mem_range] at hc
      have h4 : (List.range idx.length)[p]? ∈ pos.map some := by rw [← e5]; exact List.mem_map.2 ⟨p, hp, rfl⟩
      rw [List.getElem?_eq_none (by rw [List.length_range]; omega)] at h4
      simp at h4
    have h5 : ∀ i, (Kept hour R m dt idx i).indicator (fun _ => (1 : ℝ)) g = if i ∈ pos.toFinset then 1 else 0 := by
      intro i
      by_cases hi : i ∈ pos
      · rw [Set.indicator_of_mem ((hmem i).2 hi), if_pos (List.mem_toFinset.2 hi)]
      · rw [Set.indicator_of_notMem (fun h => hi ((hmem i).1 h)), if_neg (fun h => hi (List.mem_toFinset.1 h))]
    simp_rw [h5]
    rw [Finset.sum_ite_mem, Finset.inter_eq_right.2 hsub, Finset.sum_const, List.toFinset_card_of_nodup e2, e3]
    simp only [List.length_range, nsmul_eq_mul, mul_one]
    congr 1
    omega
  simp_rw [h2]
  simp

end
end PyF.Subsample

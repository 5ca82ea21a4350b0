import Verif.Subsample.Fair
import Mathlib.Probability.ProductMeasure
import Mathlib.Probability.Distributions.Uniform
import Mathlib.Algebra.BigOperators.Fin

/-! An ideal generator: a sequence of independent draws, each a uniform rotation for every length. -/

namespace PyF.Subsample
open PyF Spec MeasureTheory

local instance : MeasurableSpace (List ℕ) := ⊤

/-- One draw: a number below `len` for every length `len = n + 1`. -/
abbrev Draw := (n : ℕ) → Fin (n + 1)

noncomputable def drawLaw : Measure Draw := Measure.infinitePi (fun n => (PMF.uniformOfFintype (Fin (n + 1))).toMeasure)

instance : IsProbabilityMeasure drawLaw := by unfold drawLaw; infer_instance

noncomputable def seqLaw : Measure (ℕ → Draw) := Measure.infinitePi (fun _ => drawLaw)

instance : IsProbabilityMeasure seqLaw := by unfold seqLaw; infer_instance

def consSeq (p : Draw × (ℕ → Draw)) : ℕ → Draw
  | 0 => p.1
  | n + 1 => p.2 n

def unconsSeq (g : ℕ → Draw) : Draw × (ℕ → Draw) := (g 0, fun n => g (n + 1))

theorem consSeq_meas : Measurable consSeq := by
  refine measurable_pi_lambda _ fun n => ?_
  cases n with
  | zero => exact measurable_fst
  | succ n => exact (measurable_pi_apply n).comp measurable_snd

theorem unconsSeq_meas : Measurable unconsSeq := by
  unfold unconsSeq
  fun_prop

theorem seqLaw_cons : (drawLaw.prod seqLaw).map consSeq = seqLaw := by
  refine Measure.eq_infinitePi _ fun s t ht => ?_
  obtain ⟨N, hN⟩ : ∃ N, s ⊆ Finset.range (N + 1) := by
    obtain ⟨N, hN⟩ := s.exists_nat_subset_range
    exact ⟨N, hN.trans (Finset.range_mono (by omega))⟩
  classical
  set t' : ℕ → Set Draw := fun i => if i ∈ s then t i else Set.univ with ht'
  have hmt : ∀ i, MeasurableSet (t' i) := by
    intro i
    simp only [ht']
    split_ifs
    · exact ht i
    · exact MeasurableSet.univ
  have hbox : Set.pi (s : Set ℕ) t = Set.pi (Finset.range (N + 1) : Set ℕ) t' := by
    ext g
    simp only [Set.mem_pi, Finset.mem_coe, ht']
    constructor
    · intro h i _
      split_ifs with hi
      · exact h i hi
      · trivial
    · intro h i hi
      have := h i (hN hi)
      rwa [if_pos hi] at this
  have hpre : consSeq ⁻¹' (Set.pi (Finset.range (N + 1) : Set ℕ) t') = t' 0 ×ˢ Set.pi (Finset.range N : Set ℕ) (fun i => t' (i + 1)) := by
    ext p
    simp only [Set.mem_preimage, Set.mem_pi, Finset.mem_coe, Finset.mem_range, Set.mem_prod]
    constructor
    · intro h
      exact ⟨h 0 (by omega), fun i hi => h (i + 1) (by omega)⟩
    · rintro ⟨h0, h⟩ i hi
      cases i with
      | zero => exact h0
      | succ i => exact h i (by omega)
  have hprod : ∏ i ∈ s, drawLaw (t i) = ∏ i ∈ Finset.range (N + 1), drawLaw (t' i) := by
    rw [← Finset.prod_subset hN]
    · refine Finset.prod_congr rfl fun i hi => ?_
      simp only [ht', if_pos hi]
    · intro i _ hi
      simp only [ht', if_neg hi, measure_univ]
  rw [Measure.map_apply consSeq_meas (MeasurableSet.pi s.countable_toSet fun i _ => ht i), hbox, hpre, Measure.prod_prod, hprod, Finset.prod_range_succ']
  unfold seqLaw
  rw [Measure.infinitePi_pi _ (fun i _ => hmt (i + 1)), mul_comm]

theorem seqLaw_uncons : seqLaw.map unconsSeq = drawLaw.prod seqLaw := by
  conv_lhs => rw [← seqLaw_cons]
  rw [Measure.map_map unconsSeq_meas consSeq_meas]
  exact Measure.map_id

/-- The positions of a window of `k` elements starting at the draw, going round. -/
def window (d : Draw) (pos : List ℕ) (k : ℕ) : List ℕ :=
  match pos with
  | [] => []
  | a :: l => ((List.finRange (l.length + 1)).filter (fun p => (p - d l.length).val < k)).map (a :: l).get

/-- All draws of the first stratum; windows for `choice`. -/
def rotRng : Rng (ℕ → Draw) where
  seed _ := fun _ _ => 0
  multinomial g m c := (c.zipIdx.map (fun e => if e.2 = 0 then m else 0), g)
  choice g pos k := (window (unconsSeq g).1 pos k, (unconsSeq g).2)

theorem card_window (n k : ℕ) (hk : k ≤ n + 1) (f : Fin (n + 1) → Fin (n + 1)) (hf : Function.Bijective f) :
    (Finset.univ.filter (fun p => (f p).val < k)).card = k := by
  have h1 : (Finset.univ.filter (fun p => (f p).val < k)).card = (Finset.univ.filter (fun p : Fin (n + 1) => p.val < k)).card := by
    refine Finset.card_bij (fun p _ => f p) (by simp) (fun a _ b _ h => hf.1 h) (fun b hb => ?_)
    obtain ⟨a, rfl⟩ := hf.2 b
    exact ⟨a, by simpa using hb, rfl⟩
  rw [h1, Fin.card_filter_val_lt]
  omega

theorem window_sublist (d : Draw) (pos : List ℕ) (k : ℕ) : (window d pos k).Sublist pos := by
  cases pos with
  | nil => simp [window]
  | cons a l =>
    have h : window d (a :: l) k = ((List.finRange (l.length + 1)).filter (fun p => (p - d l.length).val < k)).map (a :: l).get := rfl
    rw [h]
    have h2 : (a :: l) = (List.finRange (l.length + 1)).map (a :: l).get := (List.map_get_finRange (a :: l)).symm
    conv_rhs => rw [h2]
    exact List.filter_sublist.map _

theorem window_length (d : Draw) (pos : List ℕ) (k : ℕ) (hk : k ≤ pos.length) : (window d pos k).length = k := by
  cases pos with
  | nil => simp only [List.length_nil] at hk; simp [window]; omega
  | cons a l =>
    have h : window d (a :: l) k = ((List.finRange (l.length + 1)).filter (fun p => (p - d l.length).val < k)).map (a :: l).get := rfl
    rw [h, List.length_map]
    have hb : Function.Bijective (fun p : Fin (l.length + 1) => p - d l.length) := (Equiv.subRight (d l.length)).bijective
    have := card_window l.length k hk _ hb
    refine Eq.trans ?_ this
    rw [← List.toFinset_card_of_nodup ((List.nodup_finRange _).filter _)]
    congr 1
    ext p
    simp

theorem window_mem (d : Draw) (a : ℕ) (l : List ℕ) (hn : (a :: l).Nodup) (k : ℕ) (p : Fin (l.length + 1)) : (a :: l).get p ∈ window d (a :: l) k ↔ (p - d l.length).val < k := by
  unfold window
  simp only [List.mem_map, List.mem_filter, List.mem_finRange, true_and, decide_eq_true_eq]
  constructor
  · rintro ⟨q, hq, h⟩
    have := (List.nodup_iff_injective_get.1 hn) h
    rwa [← this]
  · intro h
    exact ⟨p, h, rfl⟩

theorem window_meas (pos : List ℕ) (k : ℕ) : Measurable (fun d => window d pos k) := by
  cases pos with
  | nil => exact measurable_const
  | cons a l =>
    have h : (fun d => window d (a :: l) k) = (fun s : Fin (l.length + 1) => ((List.finRange (l.length + 1)).filter (fun p => (p - s).val < k)).map (a :: l).get) ∘ (fun d : Draw => d l.length) := rfl
    rw [h]
    exact (measurable_of_countable _).comp (measurable_pi_apply _)

theorem rot_lawful : rotRng.Lawful := by
  refine ⟨fun g m c => by simp [rotRng], fun g m c hc => ?_, fun g pos k hk => window_length _ _ _ hk, fun g pos k _ => (window_sublist _ _ _).subperm⟩
  cases c with
  | nil => simp at hc
  | cons a l =>
    have h : ∀ (l : List ℕ) (n : ℕ), 0 < n → ((l.zipIdx n).map (fun e => if e.2 = 0 then m else 0)).sum = 0 := by
      intro l
      induction l with
      | nil => intro n _; rfl
      | cons b l ih =>
        intro n hn
        rw [List.zipIdx_cons, List.map_cons, List.sum_cons, ih (n + 1) (by omega), if_neg (by simpa using hn.ne')]
    show (((a :: l).zipIdx).map (fun e => if e.2 = 0 then m else 0)).sum = m
    rw [List.zipIdx_cons, List.map_cons, List.sum_cons, h l (0 + 1) (by omega)]
    simp

theorem rot_ideal : Ideal rotRng seqLaw := by
  refine ⟨rot_lawful, fun pos k => ?_, fun m c => ?_, fun pos k hn hk => ?_, fun m c => ?_⟩
  · exact ((window_meas pos k).comp (measurable_fst.comp unconsSeq_meas)).prodMk (measurable_snd.comp unconsSeq_meas)
  · exact measurable_const.prodMk measurable_id
  · refine ⟨drawLaw.map (fun d => window d pos k), Measure.isProbabilityMeasure_map (window_meas pos k).aemeasurable, ?_, ?_⟩
    · have h1 : (fun g => rotRng.choice g pos k) = Prod.map (fun d => window d pos k) id ∘ unconsSeq := rfl
      rw [h1, ← Measure.map_map ((window_meas pos k).prodMap measurable_id) unconsSeq_meas, seqLaw_uncons, ← Measure.map_prod_map _ _ (window_meas pos k) measurable_id, Measure.map_id]
    · intro p hp
      rw [map_measureReal_apply (window_meas pos k) trivial]
      cases pos with
      | nil => simp at hp
      | cons a l =>
        obtain ⟨q, rfl⟩ := List.get_of_mem hp
        have h2 : (fun d => window d (a :: l) k) ⁻¹' {r | (a :: l).get q ∈ r} = (fun d : Draw => d l.length) ⁻¹' {s | (q - s).val < k} := by
          ext d
          exact window_mem d a l hn k q
        rw [h2, ← map_measureReal_apply (measurable_pi_apply _) (Set.toFinite _).measurableSet]
        unfold drawLaw
        rw [Measure.infinitePi_map_eval]
        have hb : Function.Bijective (fun s : Fin (l.length + 1) => q - s) := (Equiv.subLeft q).bijective
        have h3 := card_window l.length k hk _ hb
        unfold Measure.real
        rw [PMF.toMeasure_uniformOfFintype_apply _ (Set.toFinite _).measurableSet, Fintype.card_fin]
        have h4 : Fintype.card {s : Fin (l.length + 1) | (q - s).val < k} = k := by
          rw [← h3, Fintype.card_subtype]
          simp [h3]
        have h5 : ((Fintype.card {s : Fin (l.length + 1) | (q - s).val < k} : ENNReal) / ((l.length + 1 : ℕ) : ENNReal)).toReal = (k : ℝ) / ((l.length + 1 : ℕ) : ℝ) := by
          rw [ENNReal.toReal_div, ENNReal.toReal_natCast, ENNReal.toReal_natCast, h4]
        exact h5
  · refine ⟨Measure.dirac (c.zipIdx.map (fun e => if e.2 = 0 then m else 0)), inferInstance, ?_⟩
    rw [Measure.dirac_prod]
    rfl

/-- Time stamps 0..4 with hours 0, 0, 0, 1, 1; three rows are kept. Rows 0 and 2 have the same chance, and the chances add up to three. -/
example : seqLaw.real (Kept (fun t : ℕ => if t < 3 then 0 else 1) rotRng 3 true [0, 1, 2, 3, 4] 0) = seqLaw.real (Kept (fun t : ℕ => if t < 3 then 0 else 1) rotRng 3 true [0, 1, 2, 3, 4] 2) :=
  C301_same_hour _ rotRng seqLaw rot_ideal 3 [0, 1, 2, 3, 4] (by decide) true 0 2 0 2 rfl rfl rfl

example : ∑ i ∈ Finset.range 5, seqLaw.real (Kept (fun t : ℕ => if t < 3 then 0 else 1) rotRng 3 true [0, 1, 2, 3, 4] i) = 3 := by
  have := C301_total (fun t : ℕ => if t < 3 then 0 else 1) rotRng seqLaw rot_ideal 3 [0, 1, 2, 3, 4] (by decide) true
  simpa using this

/-- Without time stamps every row has the chance 3/5. -/
example (i : ℕ) (hi : i < 5) : seqLaw.real (Kept (fun t : ℕ => t) rotRng 3 false [0, 1, 2, 3, 4] i) = 3 / 5 := by
  have := C301_uniform (fun t : ℕ => t) rotRng seqLaw rot_ideal 3 [0, 1, 2, 3, 4] (by decide) false (Or.inl rfl) i hi
  simpa using this

end PyF.Subsample

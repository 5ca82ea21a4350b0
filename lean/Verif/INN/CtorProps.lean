import Verif.INN.Ctor
import Mathlib.Tactic.Common

namespace PyF.INN

open PyF

theorem attr_exo (a : Args) : attr a .nExogenous = a.nExogenous := rfl

/-- **C127.** Defect: the hidden width asked for is ignored; the predictor always has 200 units per hidden layer. -/
theorem C127_hidden_ignored (a : Args) (h : ℕ) : build { a with nHiddenY := h } = build a := rfl

/-- **C127.** ... -/
theorem C127_widths (a : Args) (c : Config) (h : build a = .ok c) (w : List ℕ) (e : ℕ) (hp : c.predictor = some (w, e)) :
    w.dropLast = List.replicate (a.nPredictionLayers - 1) 200 ∧ w.getLast? = a.nOut ∧ e = a.nExogenous ∧ c.features + e = a.nIn := by
  unfold build at h
  split at h
  · simp at h
  · rename_i n hn
    split at h
    · rename_i hle
      injection h with h
      by_cases hm : a.endToEnd = .none
      · rw [if_pos hm] at h; subst h; simp at hp
      · rw [if_neg hm] at h; subst h
        simp only [Option.some.injEq, Prod.mk.injEq] at hp
        obtain ⟨rfl, rfl⟩ := hp
        refine ⟨by rw [List.dropLast_concat]; rfl, by simp [hn], rfl, ?_⟩
        rw [attr_exo] at hle
        show a.nIn - a.nExogenous + a.nExogenous = a.nIn
        omega
    · simp at h

/-- **C127.** Defect: an embedding-only network ignores the scaling factor. -/
theorem C127_scaling_ignored (a : Args) (h : a.endToEnd = .none) (s : ℚ) : build { a with scalingFactor := s } = build a := by
  unfold build
  cases a.nOut with
  | none => rfl
  | some n => simp only [h, if_true]; rfl

/-- **C127.** ... while an end-to-end network uses it. -/
theorem C127_scaling_used (a : Args) (h : a.endToEnd ≠ .none) (c : Config) (hb : build a = .ok c) : c.scaling = a.scalingFactor ∧ c.layers = a.nLayers := by
  unfold build at hb
  simp only [if_neg h] at hb
  split at hb
  · simp at hb
  · split at hb
    · injection hb with hb
      subst hb; exact ⟨rfl, rfl⟩
    · simp at hb

/-- **C127.** When construction succeeds: the horizon is given and not longer than the history. Without a horizon (the default, also when loading) it is a TypeError. -/
theorem C127_outcomes (a : Args) :
    (a.nOut = Option.none → build a = .error .typeError) ∧
    (∀ n, a.nOut = some n → a.nIn < a.nExogenous + n → build a = .error .assertionError) ∧
    (∀ n, a.nOut = some n → a.nExogenous + n ≤ a.nIn → ∃ c, build a = .ok c) := by
  refine ⟨fun h => by unfold build; rw [h], fun n h hl => ?_, fun n h hl => ?_⟩
  · unfold build; rw [h]; exact if_neg (show ¬ a.nExogenous + n ≤ a.nIn by omega)
  · unfold build; rw [h]; exact ⟨_, if_pos hl⟩

/-! ### Order of the inputs -/

theorem pick_ok (r : Row) (names : List Col) (h : ∀ c ∈ names, c ∈ r.map Prod.fst) : ∃ out, pick r names = .ok out ∧ out.map Prod.fst = names ∧ ∀ c v, (c, v) ∈ out → r.lookup c = some v := by
  unfold pick
  induction names with
  | nil => exact ⟨[], rfl, rfl, by simp⟩
  | cons c cs ih =>
    obtain ⟨out, h1, h2, h3⟩ := ih (fun d hd => h d (List.mem_cons_of_mem _ hd))
    have hc := h c List.mem_cons_self
    cases hl : r.lookup c with
    | none =>
      rw [List.lookup_eq_none_iff] at hl
      obtain ⟨e, he, rfl⟩ := List.mem_map.1 hc
      have := hl e he
      simp at this
    | some v =>
      refine ⟨(c, v) :: out, ?_, by simp [h2], ?_⟩
      · rw [List.mapM_cons, hl, h1]; rfl
      · intro d w hd
        rcases List.mem_cons.1 hd with he | he
        · injection he with e1 e2; rw [e1, e2, hl]
        · exact h3 d w he

theorem pick_missing (r : Row) (names : List Col) (c : Col) (hc : c ∈ names) (h : c ∉ r.map Prod.fst) : pick r names = .error .keyError := by
  unfold pick
  induction names with
  | nil => simp at hc
  | cons d ds ih =>
    rw [List.mapM_cons]
    cases hl : r.lookup d with
    | none => rfl
    | some v =>
      have hd : c ∈ ds := by
        rcases List.mem_cons.1 hc with e | e
        · exfalso
          subst e
          have : r.lookup c = none := by
            rw [List.lookup_eq_none_iff]
            intro p hp
            simp only [bne_iff_ne, ne_eq]
            intro e2
            exact h (List.mem_map.2 ⟨p, hp, e2.symm⟩)
          rw [this] at hl; cases hl
        · exact e
      simp only [bind, Except.bind]
      have := ih hd
      rw [this]

/-- **C128.** Reordering puts the exogenous columns first, in the order of the constructor, and keeps the others in their order; every value stays with its name. -/
theorem C128_order (exo : List Col) (r : Row) (hnd : (r.map Prod.fst).Nodup) (he : ∀ c ∈ exo, c ∈ r.map Prod.fst) :
    ∃ out, reorder exo r = .ok out ∧ out.map Prod.fst = exo ++ (r.map Prod.fst).filter (fun c => c ∉ exo) ∧ ∀ e ∈ out, e ∈ r := by
  have hmem : ∀ c v, r.lookup c = some v → (c, v) ∈ r := by
    intro c v h
    rw [List.lookup_eq_some_iff] at h
    obtain ⟨l1, l2, rfl, _⟩ := h
    simp
  unfold reorder
  by_cases h0 : exo.length > 0
  · rw [if_pos h0]
    obtain ⟨out, h1, h2, h3⟩ := pick_ok r (order exo (r.map Prod.fst)) (by
      intro c hc
      rcases List.mem_append.1 hc with h | h
      · exact he c h
      · exact (List.mem_filter.1 h).1)
    refine ⟨out, h1, h2, ?_⟩
    rintro ⟨c, v⟩ hm
    exact hmem c v (h3 c v hm)
  · rw [if_neg h0]
    have : exo = [] := List.length_eq_zero_iff.1 (by omega)
    subst this
    exact ⟨r, rfl, by rw [List.nil_append, List.filter_eq_self.2 (by simp)], fun e h => h⟩

/-- **C128.** A missing exogenous column is a KeyError. -/
theorem C128_missing (exo : List Col) (r : Row) (c : Col) (hc : c ∈ exo) (h : c ∉ r.map Prod.fst) : reorder exo r = .error .keyError := by
  unfold reorder
  rw [if_pos (List.length_pos_of_mem hc)]
  exact pick_missing r _ c (List.mem_append_left _ hc) h

theorem nodup_key {r : Row} (h : (r.map Prod.fst).Nodup) {c : Col} {v w : ℚ} (h1 : (c, v) ∈ r) (h2 : (c, w) ∈ r) : (c, v) = (c, w) := by
  induction r with
  | nil => simp at h1
  | cons e es ih =>
    rw [List.map_cons, List.nodup_cons] at h
    rcases List.mem_cons.1 h1 with a | a <;> rcases List.mem_cons.1 h2 with b | b
    · rw [a, b]
    · exact absurd (List.mem_map.2 ⟨_, b, by rw [← a]⟩) h.1
    · exact absurd (List.mem_map.2 ⟨_, a, by rw [← b]⟩) h.1
    · exact ih h.2 a b

theorem row_ext : ∀ (a b r : Row), (r.map Prod.fst).Nodup → a.map Prod.fst = b.map Prod.fst → (∀ e ∈ a, e ∈ r) → (∀ e ∈ b, e ∈ r) → a = b
  | [], [], _, _, _, _, _ => rfl
  | [], _ :: _, _, _, h, _, _ => by simp at h
  | _ :: _, [], _, _, h, _, _ => by simp at h
  | (c, v) :: as, (d, w) :: bs, r, hnd, h, ha, hb => by
    simp only [List.map_cons, List.cons.injEq] at h
    obtain ⟨rfl, h2⟩ := h
    have e1 := ha (c, v) List.mem_cons_self
    have e2 := hb (c, w) List.mem_cons_self
    have : (c, v) = (c, w) := nodup_key hnd e1 e2
    rw [this, row_ext as bs r hnd h2 (fun e he => ha e (List.mem_cons_of_mem _ he)) (fun e he => hb e (List.mem_cons_of_mem _ he))]

/-- **C128.** So two frames with the same values whose endogenous columns are in the same order are the same to the network, wherever the exogenous columns stand. -/
theorem C128_position_irrelevant (exo : List Col) (r r' : Row) (hp : r.Perm r') (hnd : (r.map Prod.fst).Nodup) (he : ∀ c ∈ exo, c ∈ r.map Prod.fst)
    (ho : (r.map Prod.fst).filter (fun c => c ∉ exo) = (r'.map Prod.fst).filter (fun c => c ∉ exo)) : reorder exo r = reorder exo r' := by
  have hp' := hp.map Prod.fst
  obtain ⟨o1, a1, a2, a3⟩ := C128_order exo r hnd he
  obtain ⟨o2, b1, b2, b3⟩ := C128_order exo r' (hp'.nodup_iff.1 hnd) (fun c hc => hp'.mem_iff.1 (he c hc))
  rw [a1, b1, row_ext o1 o2 r hnd (by rw [a2, b2, ho]) a3 (fun e h => hp.mem_iff.2 (b3 e h))]

/-- **C128.** The window of the target embedding: the exogenous columns at the front do not disturb it. What the embedder sees is the endogenous history shifted by the
horizon, followed by the targets. -/
theorem C128_window (exo endo y : List ℚ) (h : y.length ≤ endo.length) :
    endogenous exo.length (futureWindow (exo ++ endo) y) = endo.drop y.length ++ y := by
  unfold endogenous futureWindow
  rw [List.drop_append_of_le_length (by simp; omega), List.drop_drop, List.drop_append, List.drop_of_length_le (by omega), List.nil_append]
  congr 2
  omega

end PyF.INN

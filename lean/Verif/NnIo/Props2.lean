import Verif.NnIo.Model
import Verif.Ctor.Props

namespace PyF.NnIo

open PyF

/-! ### C182: number of outputs -/

/-- The number of network outputs `t` targets need. -/
def need (prob : Bool) (t : ℕ) : ℕ := if prob then 2 * t else t

theorem frames_iff (prob : Bool) (m t : ℕ) : frames prob m t = .ok () ↔ m = need prob t := by
  unfold frames need
  cases prob <;> simp
  omega

/-- A forecast frame comes out. -/
def Works (a : Arch) (p t : ℕ) (prob : Bool) : Prop := ∃ m, a.outs p = .ok m ∧ frames prob m t = .ok ()

/-- C182. With a number of layers (at least one) and no selector the network has `n_out` outputs, so a forecast comes out iff `n_out` is the number of targets, or twice that number for
a probabilistic network, whatever the hidden sizes, heads and skip connection. -/
theorem C182_count (a : Arch) (k p t : ℕ) (prob : Bool) (hl : a.layers = .count (k + 1)) (hs : a.sel = none) :
    a.outs p = .ok a.nOut ∧ (Works a p t prob ↔ a.nOut = need prob t) := by
  have h : a.outs p = .ok a.nOut := by
    unfold Arch.outs Arch.widths
    rw [hl]
    simp only [Arch.short, hs]
    cases a.skip <;> simp [Arch.chain, bcast]
  refine ⟨h, ?_⟩
  unfold Works
  rw [h]
  constructor
  · rintro ⟨m, hm, hf⟩
    cases hm
    exact (frames_iff _ _ _).1 hf
  · intro he
    exact ⟨_, rfl, (frames_iff _ _ _).2 he⟩

/-- C182. With a selector of `s` columns, a forecast comes out iff `n_out` fits and `s` fits or is one, or `n_out` is one and `s` fits: then all targets share one correction. -/
theorem C182_selector (a : Arch) (k p t s : ℕ) (prob : Bool) (hl : a.layers = .count (k + 1)) (hs : a.sel = some s) :
    Works a p t prob ↔ (a.nOut = need prob t ∧ (s = need prob t ∨ s = 1)) ∨ (a.nOut = 1 ∧ s = need prob t) := by
  have h : a.outs p = bcast a.nOut s := by
    unfold Arch.outs Arch.widths
    rw [hl]
    simp only [Arch.short, hs]
    simp [Arch.chain]
  unfold Works
  rw [h]
  unfold bcast
  simp only [frames_iff]
  constructor
  · rintro ⟨m, hm, hn⟩
    split_ifs at hm with h1 h2 h3
    · have := Except.ok.inj hm
      exact Or.inl ⟨this.trans hn, Or.inl (h1.symm.trans (this.trans hn))⟩
    · have := Except.ok.inj hm
      exact Or.inl ⟨this.trans hn, Or.inr h2⟩
    · have := Except.ok.inj hm
      exact Or.inr ⟨h3, this.trans hn⟩
  · rintro (⟨h1, h2⟩ | ⟨h1, h2⟩)
    · refine ⟨a.nOut, ?_, h1⟩
      split_ifs with h3 h4 h5
      · rfl
      · rfl
      · rcases h2 with h2 | h2
        · exact absurd (h1.trans h2.symm) h3
        · exact absurd h2 h4
      · rcases h2 with h2 | h2
        · exact absurd (h1.trans h2.symm) h3
        · exact absurd h2 h4
    · refine ⟨s, ?_, h2⟩
      split_ifs with h3 h4
      · rw [h3]
      · rw [h1, h4]
      · rfl

/-- C182. With a list of layer sizes `n_out` is ignored (without heads): the last size counts. -/
theorem C182_list (a : Arch) (l : List ℕ) (w p t : ℕ) (prob : Bool) (hl : a.layers = .widths (l ++ [w])) (hs : a.sel = none) (hh : a.split = false) :
    Works a p t prob ↔ w = need prob t := by
  have h : a.outs p = .ok w := by
    unfold Arch.outs Arch.widths
    rw [hl]
    simp only [Arch.short, hs]
    cases a.skip <;> simp [Arch.chain, bcast, hh]
  unfold Works
  rw [h]
  constructor
  · rintro ⟨m, hm, hf⟩
    cases hm
    exact (frames_iff _ _ _).1 hf
  · intro he
    exact ⟨_, rfl, (frames_iff _ _ _).2 he⟩

/-- C182. With such a list, heads and a skip connection, the last size must fit or be one besides `n_out`, or `n_out` be one. -/
theorem C182_list_heads (a : Arch) (l : List ℕ) (w p t : ℕ) (prob : Bool) (hl : a.layers = .widths (l ++ [w])) (hs : a.sel = none) (hh : a.split = true) :
    Works a p t prob ↔ if a.skip then (a.nOut = need prob t ∧ (w = need prob t ∨ w = 1)) ∨ (a.nOut = 1 ∧ w = need prob t) else a.nOut = need prob t := by
  cases hk : a.skip with
  | false =>
    have h : a.outs p = .ok a.nOut := by
      unfold Arch.outs Arch.widths
      rw [hl]
      simp [Arch.short, hs, hk, Arch.chain, hh]
    unfold Works
    rw [h]
    simp only [frames_iff, Except.ok.injEq, exists_eq_left', Bool.false_eq_true, if_false]
  | true =>
    have h : a.outs p = bcast a.nOut w := by
      unfold Arch.outs Arch.widths
      rw [hl]
      simp [Arch.short, hs, hk, Arch.chain, hh]
    unfold Works
    rw [h]
    simp only [if_true]
    have := C182_selector ⟨.count 1, a.nOut, 0, false, some w, false⟩ 0 p t w prob rfl rfl
    unfold Works at this
    rw [← this]
    rfl

/-- C182. No layer at all: the number zero is refused; the empty list gives the inputs back as outputs. -/
theorem C182_none (a : Arch) (p : ℕ) (hs : a.sel = none) :
    (a.layers = .count 0 → a.outs p = .error .indexError) ∧ (a.layers = .widths [] → a.skip = false → a.outs p = .ok p) := by
  constructor
  · intro hl
    simp [Arch.outs, Arch.widths, hl]
  · intro hl hk
    simp [Arch.outs, Arch.widths, hl, Arch.short, hs, hk, Arch.chain]

/-! ### C187: keywords without effect -/

theorem nn_congr (d d' : Ctor.Dict) (h : ∀ k ∈ nnNames ++ Ctor.scenarioGeneratorNames ++ Ctor.genNames, d k = d' k) : nn d = nn d' := by
  have hn : d.named nnNames = d'.named nnNames := Ctor.named_congr _ _ _ (fun k hk => h k (by simp [hk]))
  have hg : Ctor.scenarioGenerator ((d.rest nnNames).update (d.named ["q_vect", "val_ratio", "nodes_at_step"])) =
      Ctor.scenarioGenerator ((d'.rest nnNames).update (d'.named ["q_vect", "val_ratio", "nodes_at_step"])) := by
    apply Ctor.scenarioGenerator_congr
    intro k hk
    have hk' : d k = d' k := h k (by
      rcases List.mem_append.1 hk with h1 | h1
      · simp [h1]
      · simp [h1])
    simp [Ctor.Dict.update, Ctor.Dict.rest, Ctor.Dict.named, hk']
  unfold nn
  rw [hg, hn]

/-- C187 (defect). Whatever is passed as `scengen_dict` (or as the module), `FFNN` and `LSTMNN` build the same object, hence the same scenario generator. -/
theorem C187_scengen_dict (own : List String) (m m' : Ctor.Val) (d : Ctor.Dict) (v : Ctor.Val) : ffnn own m' (d.set "scengen_dict" v) = ffnn own m d := by
  unfold ffnn
  apply nn_congr
  intro k hk
  have h1 : k ≠ "scengen_dict" := by
    rintro rfl
    revert hk; decide
  have h2 : k ≠ "nn_module" := by
    rintro rfl
    revert hk; decide
  simp [Ctor.Dict.set, Ctor.Dict.rest, h1, h2]

/-- C187 (defect). `probabilistic_loss_kind` is stored, but the loss trained on does not depend on it: the likelihood for a probabilistic network, the squared error otherwise. -/
theorem C187_loss_kind (own : List String) (m : Ctor.Val) (d : Ctor.Dict) (v : Ctor.Val) (o o' : Obj) (hown : "probabilistic" ∉ own) (h : ffnn own m d = .ok o)
    (h' : ffnn own m (d.set "probabilistic_loss_kind" v) = .ok o') :
    o'.loss = o.loss ∧ o.loss ≠ .crps ∧ (o.loss = .likelihood ↔ d "probabilistic" = some (.bool true)) := by
  have key : ∀ (d : Ctor.Dict) (o : Obj), ffnn own m d = .ok o → o.loss = if d "probabilistic" = some (.bool true) then .likelihood else .squared := by
    intro d o h
    unfold ffnn nn at h
    split at h
    · cases h
    · cases h
      simp [lossOf, Ctor.Dict.named, Ctor.Dict.set, Ctor.Dict.rest, nnNames, hown]
  rw [key d o h, key _ o' h']
  have : (d.set "probabilistic_loss_kind" v) "probabilistic" = d "probabilistic" := by simp [Ctor.Dict.set]
  rw [this]
  refine ⟨rfl, ?_, ?_⟩ <;> split_ifs with hp <;> simp [hp]

/-- C187. A keyword of the scenario generator given directly does reach it: the type of the tree, for example. -/
theorem C187_direct (own : List String) (m : Ctor.Val) (d : Ctor.Dict) (o : Obj) (k : String) (hk : k ∈ ["copula_type", "tree_type", "online_tree_reduction", "max_iterations", "parallel_preds", "prefit_trees"])
    (hown : k ∉ own) (h : ffnn own m d = .ok o) : o.gen.sg.own k = d k := by
  unfold ffnn nn at h
  split at h
  · cases h
  · rename_i g hg
    cases h
    unfold Ctor.scenarioGenerator at hg
    split at hg
    · cases hg
    · rename_i sg hsg
      cases hg
      obtain ⟨c, t, cs, ts, -, -, -, -, rfl⟩ := Ctor.scenGen_ok _ _ hsg
      simp only [List.mem_cons, List.not_mem_nil, or_false] at hk
      rcases hk with rfl | rfl | rfl | rfl | rfl | rfl <;>
        simp [Ctor.Dict.named, Ctor.Dict.update, Ctor.Dict.rest, Ctor.Dict.set, Ctor.scenGenNames, Ctor.scenarioGeneratorNames, nnNames, hown]

end PyF.NnIo

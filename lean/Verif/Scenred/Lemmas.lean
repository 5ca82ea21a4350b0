import Verif.Scenred.Model
import Mathlib.Tactic.Linarith
import Mathlib.Tactic.Ring
import Mathlib.Tactic.FieldSimp
import Mathlib.Tactic.Tauto
import Mathlib.Tactic.Positivity
import Mathlib.Algebra.Order.BigOperators.Group.Finset

namespace PyF.Scenred
open PyF

variable {n : Nat} {V : Type}

/-- The survivors as a finite set. -/
def aliveSet (s : St n V) : Finset (Fin n) := Finset.univ.filter (fun k => s.alive k = true)

/-- What is assumed of the numerical inputs: at least one step, positive node counts, distances that are not negative and far
below the number used for infinity, and minimum routines that return a minimum. -/
structure Good (c : Cfg n) : Prop where
  steps : 1 ≤ c.T
  nodes : ∀ i, 1 ≤ c.nodes i
  nonneg : ∀ i r k, 0 ≤ c.dist i r k
  self : ∀ i r, c.dist i r r = 0
  bound : ∀ r k, c.dist (c.T - 1) r k < infty - 1
  argmin : ∀ (v : Fin n → ℚ) k, v (c.argmin v) ≤ v k
  argsort0 : ∀ (v : Fin n → ℚ) k, v (c.argsort0 v) ≤ v k

theorem foldl_max_le (l : List ℚ) : ∀ a, a ≤ l.foldl max a ∧ ∀ x ∈ l, x ≤ l.foldl max a := by
  induction l with
  | nil => intro a; simp
  | cons b l ih =>
    intro a
    rw [List.foldl_cons]
    obtain ⟨h1, h2⟩ := ih (max a b)
    refine ⟨le_trans (le_max_left _ _) h1, ?_⟩
    intro x hx
    rcases List.mem_cons.1 hx with rfl | hx
    · exact le_trans (le_max_right _ _) h1
    · exact h2 x hx

theorem foldl_max_lt (l : List ℚ) (B : ℚ) : ∀ a, a < B → (∀ x ∈ l, x < B) → l.foldl max a < B := by
  induction l with
  | nil => intro a ha _; exact ha
  | cons b l ih =>
    intro a ha h
    rw [List.foldl_cons]
    exact ih _ (max_lt ha (h b (by simp))) (fun x hx => h x (List.mem_cons_of_mem _ hx))

theorem dist_le_max (c : Cfg n) (r k : Fin n) : c.dist (c.T - 1) r k ≤ maxDist c := by
  unfold maxDist
  apply (foldl_max_le _ 0).2
  rw [List.mem_flatMap]
  exact ⟨r, List.mem_finRange r, List.mem_map.2 ⟨k, List.mem_finRange k, rfl⟩⟩

theorem initD_bounds {c : Cfg n} (g : Good c) (r k : Fin n) : 0 ≤ initD c r k ∧ initD c r k < infty ∧ (r ≠ k → initD c r k < initD c k k) := by
  have hm : maxDist c < infty - 1 := by
    unfold maxDist
    apply foldl_max_lt
    · norm_num [infty]
    · intro x hx
      rw [List.mem_flatMap] at hx
      obtain ⟨a, _, hx⟩ := hx
      obtain ⟨b, _, rfl⟩ := List.mem_map.1 hx
      exact g.bound a b
  have hm0 : 0 ≤ maxDist c := le_trans (g.nonneg _ r k) (dist_le_max c r k)
  refine ⟨?_, ?_, ?_⟩
  · unfold initD
    have := g.nonneg (c.T - 1) r k
    split <;> linarith
  · unfold initD
    split
    · rename_i h
      subst h
      rw [g.self]; linarith
    · have := g.bound r k
      linarith
  · intro h
    unfold initD
    rw [if_neg h, if_pos rfl, g.self]
    have := dist_le_max c r k
    linarith

/-- Invariant: `own` sends each scenario to the survivor that represents it. -/
structure Inv (c : Cfg n) (S0 : Nat → Fin n → V) (i : Nat) (own : Fin n → Fin n) (s : St n V) : Prop where
  alive_own : ∀ k, s.alive (own k) = true
  own_alive : ∀ a, s.alive a = true → own a = a
  P : ∀ a, s.P a = ((Finset.univ.filter (fun k => own k = a)).card : ℚ) / n
  L : ∀ a b, s.alive a = true → (s.L a b = true ↔ b ≠ a ∧ own b = a)
  D : ∀ r k, s.alive r = true → s.alive k = true → s.D r k = initD c r k
  S : ∀ t, t ≤ i → ∀ k, s.S t k = S0 t (own k)

section
variable {c : Cfg n} {S0 : Nat → Fin n → V} {i : Nat} {own : Fin n → Fin n} {s : St n V}

theorem Inv.pos_iff (h : Inv c S0 i own s) (a : Fin n) : 0 < s.P a ↔ s.alive a = true := by
  have hn : (0 : ℚ) < n := by exact_mod_cast Fin.pos a
  rw [h.P, div_pos_iff_of_pos_right hn]
  rw [Nat.cast_pos, Finset.card_pos]
  constructor
  · rintro ⟨k, hk⟩
    rw [Finset.mem_filter] at hk
    rw [← hk.2]; exact h.alive_own k
  · intro ha
    exact ⟨a, by rw [Finset.mem_filter]; exact ⟨Finset.mem_univ _, h.own_alive a ha⟩⟩

theorem Inv.branches (h : Inv c S0 i own s) : branches s = (aliveSet s).card := by
  unfold Scenred.branches aliveSet
  have : (List.finRange n).countP (fun k => decide (0 < s.P k)) = (List.finRange n).countP (fun k => s.alive k) := by
    apply List.countP_congr
    intro k _
    simp only [decide_eq_true_eq]
    exact h.pos_iff k
  rw [this, List.countP_eq_length_filter]
  have hn : ((List.finRange n).filter s.alive).Nodup := (List.nodup_finRange n).filter _
  rw [← List.toFinset_card_of_nodup hn]
  congr 1
  ext k
  simp

theorem Inv.P_le_one (h : Inv c S0 i own s) (a : Fin n) : s.P a ≤ 1 := by
  have hn : (0 : ℚ) < n := by exact_mod_cast Fin.pos a
  rw [h.P, div_le_one hn]
  have := Finset.card_le_univ (Finset.univ.filter (fun k => own k = a))
  rw [Fintype.card_fin] at this
  exact_mod_cast this

theorem Inv.nonempty (h : Inv c S0 i own s) (k : Fin n) : 1 ≤ (aliveSet s).card := by
  rw [Nat.one_le_iff_ne_zero, ← Nat.pos_iff_ne_zero, Finset.card_pos]
  exact ⟨own k, by unfold aliveSet; rw [Finset.mem_filter]; exact ⟨Finset.mem_univ _, h.alive_own k⟩⟩

theorem Inv.choice (g : Good c) (h : Inv c S0 i own s) (h2 : 2 ≤ (aliveSet s).card) :
    s.alive (idxRem c s) = true ∧ s.alive (idxAug c s) = true ∧ idxAug c s ≠ idxRem c s := by
  obtain ⟨a, ha, b, hb, hab⟩ := Finset.one_lt_card.1 (show 1 < (aliveSet s).card by omega)
  have ha' : s.alive a = true := by unfold aliveSet at ha; exact (Finset.mem_filter.1 ha).2
  have hb' : s.alive b = true := by unfold aliveSet at hb; exact (Finset.mem_filter.1 hb).2
  -- cost of a survivor is below infinity
  have hcost : ∀ k, s.alive k = true → costs c s k < infty := by
    intro k hk
    unfold costs
    rw [if_neg (by simp [hk])]
    have h1 : maskD s.alive s.D (c.argsort0 (fun r => maskD s.alive s.D r k)) k ≤ maskD s.alive s.D k k := g.argsort0 (fun r => maskD s.alive s.D r k) k
    have h2 : maskD s.alive s.D k k = initD c k k := by
      unfold maskD
      rw [if_neg (by simp [hk]), h.D k k hk hk]
    have h3 := (initD_bounds g k k).2.1
    have h4 := (h.pos_iff k).2 hk
    have h5 := h.P_le_one k
    rw [h2] at h1
    have hI : (0 : ℚ) < infty := by norm_num [infty]
    calc _ ≤ initD c k k * s.P k := mul_le_mul_of_nonneg_right h1 (le_of_lt h4)
      _ ≤ initD c k k * 1 := mul_le_mul_of_nonneg_left h5 (initD_bounds g k k).1
      _ < infty := by rw [mul_one]; exact h3
  have hrem : s.alive (idxRem c s) = true := by
    by_contra hd
    have hd' : s.alive (idxRem c s) = false := by simpa using hd
    have h1 : costs c s (idxRem c s) = infty := by unfold costs; rw [if_pos hd']
    have h2 : costs c s (idxRem c s) ≤ costs c s a := g.argmin (costs c s) a
    have := hcost a ha'
    linarith
  -- another survivor
  obtain ⟨e, he, hne⟩ : ∃ e, s.alive e = true ∧ e ≠ idxRem c s := by
    by_cases hx : a = idxRem c s
    · exact ⟨b, hb', fun h => hab (hx.trans h.symm)⟩
    · exact ⟨a, ha', hx⟩
  have hmin : maskD s.alive s.D (idxAug c s) (idxRem c s) ≤ maskD s.alive s.D e (idxRem c s) :=
    g.argsort0 (fun r => maskD s.alive s.D r (idxRem c s)) e
  have hval : maskD s.alive s.D e (idxRem c s) = initD c e (idxRem c s) := by
    unfold maskD
    rw [if_neg (by simp [he, hrem]), h.D _ _ he hrem]
  have hb1 := initD_bounds g e (idxRem c s)
  have haug : s.alive (idxAug c s) = true := by
    by_contra hd
    have hd' : s.alive (idxAug c s) = false := by simpa using hd
    have : maskD s.alive s.D (idxAug c s) (idxRem c s) = infty := by unfold maskD; rw [if_pos (Or.inl hd')]
    rw [this, hval] at hmin
    linarith [hb1.2.1]
  refine ⟨hrem, haug, ?_⟩
  intro heq
  have h1 := hb1.2.2 hne
  have : maskD s.alive s.D (idxAug c s) (idxRem c s) = initD c (idxRem c s) (idxRem c s) := by
    rw [heq]
    unfold maskD
    rw [if_neg (by simp [hrem]), h.D _ _ hrem hrem]
  rw [this, hval] at hmin
  linarith

theorem Inv.merge (g : Good c) (h : Inv c S0 i own s) (h2 : 2 ≤ (aliveSet s).card) :
    Inv c S0 i (fun k => if own k = idxRem c s then idxAug c s else own k) (merge c i s) ∧
      (aliveSet (merge c i s)).card + 1 = (aliveSet s).card := by
  obtain ⟨hr, ha, hne⟩ := h.choice g h2
  have hownr := h.own_alive _ hr
  have howna := h.own_alive _ ha
  generalize hrem : idxRem c s = rem at *
  generalize haug : idxAug c s = aug at *
  have hL1 : ∀ k, mergeL s.L rem aug rem k = s.L rem k := by
    intro k
    unfold mergeL
    simp only
    rw [if_neg (by tauto), if_neg (by tauto)]
  constructor
  · constructor
    · intro k
      simp only [Scenred.merge, hrem]
      by_cases hk : own k = rem
      · rw [if_pos hk, if_neg hne, ha]
      · rw [if_neg hk, if_neg hk, h.alive_own]
    · intro a hal
      simp only [Scenred.merge, hrem] at hal
      by_cases har : a = rem
      · rw [if_pos har] at hal; cases hal
      · rw [if_neg har] at hal
        rw [h.own_alive a hal, if_neg har]
    · intro a
      simp only [Scenred.merge, hrem, haug]
      by_cases har : a = rem
      · rw [if_pos har, har]
        have : (Finset.univ.filter (fun k => (if own k = rem then aug else own k) = rem)) = ∅ := by
          apply Finset.filter_false_of_mem
          intro k _
          split
          · exact hne
          · assumption
        rw [this]; simp
      · rw [if_neg har]
        by_cases haa : a = aug
        · rw [if_pos haa, haa, h.P, h.P]
          have : (Finset.univ.filter (fun k => (if own k = rem then aug else own k) = aug)) =
              (Finset.univ.filter (fun k => own k = rem)) ∪ (Finset.univ.filter (fun k => own k = aug)) := by
            ext k
            simp only [Finset.mem_filter, Finset.mem_univ, true_and, Finset.mem_union]
            split <;> tauto
          rw [this, Finset.card_union_of_disjoint]
          · push_cast; ring
          · rw [Finset.disjoint_filter]
            intro k _ h1 h2
            exact hne (h2.symm.trans h1)
        · rw [if_neg haa, h.P]
          congr 3
          ext k
          simp only [Finset.mem_filter, Finset.mem_univ, true_and]
          split
          · rename_i h1
            rw [h1]
            constructor
            · intro h2; exact absurd h2.symm har
            · intro h2; exact absurd h2.symm haa
          · rfl
    · intro a b hal
      simp only [Scenred.merge, hrem, haug] at hal ⊢
      by_cases har : a = rem
      · rw [if_pos har] at hal; cases hal
      rw [if_neg har] at hal
      unfold mergeL
      simp only
      have e1 : (if rem = aug ∧ b = rem then true else s.L rem b) = s.L rem b := if_neg (by tauto)
      rw [e1]
      have hLr := h.L rem b hr
      have hLa := h.L a b hal
      by_cases haa : a = aug
      · subst haa
        simp only [true_and]
        have hba : own b = rem → b ≠ a := by
          intro h1 h2
          rw [h2, howna] at h1
          exact hne h1
        by_cases hob : own b = rem
        · rw [if_pos hob]
          have : (if s.L rem b = true then true else if b = rem then true else s.L a b) = true := by
            by_cases hbr : b = rem
            · rw [if_pos hbr]; split <;> rfl
            · rw [if_pos (hLr.2 ⟨hbr, hob⟩)]
          rw [this]
          simp only [true_iff]
          exact ⟨hba hob, trivial⟩
        · rw [if_neg hob]
          have hbr : b ≠ rem := fun h1 => hob (by rw [h1]; exact hownr)
          rw [if_neg (fun h1 => hob (hLr.1 h1).2), if_neg hbr]
          exact hLa
      · rw [if_neg (by tauto), if_neg (by tauto), hLa]
        split
        · rename_i h1
          rw [h1]
          constructor
          · intro h2; exact absurd h2.2.symm har
          · intro h2; exact absurd h2.2.symm haa
        · rfl
    · intro r k hr1 hk1
      simp only [Scenred.merge, hrem] at hr1 hk1 ⊢
      have hr2 : s.alive r = true := by
        by_cases hx : r = rem
        · rw [if_pos hx] at hr1; cases hr1
        · rwa [if_neg hx] at hr1
      have hk2 : s.alive k = true := by
        by_cases hx : k = rem
        · rw [if_pos hx] at hk1; cases hk1
        · rwa [if_neg hx] at hk1
      unfold maskD
      rw [if_neg (by simp [hr2, hk2])]
      exact h.D r k hr2 hk2
    · intro t ht k
      simp only [Scenred.merge, hrem, haug]
      unfold mergeS
      simp only
      rw [hL1]
      have eaug : (if t ≤ i ∧ aug = rem then s.S t aug else s.S t aug) = S0 t aug := by
        rw [if_neg (by tauto), h.S t ht, howna]
      rw [eaug]
      have hLr := h.L rem k hr
      by_cases hok : own k = rem
      · rw [if_pos hok]
        by_cases hkr : k = rem
        · subst hkr
          split
          · rfl
          · rw [if_pos ⟨ht, rfl⟩, h.S t ht, howna]
        · rw [if_pos ⟨ht, hLr.2 ⟨hkr, hok⟩⟩]
      · rw [if_neg hok]
        have hkr : k ≠ rem := fun h1 => hok (by rw [h1]; exact hownr)
        rw [if_neg (fun h1 => hok (hLr.1 h1.2).2), if_neg (by tauto), h.S t ht]
  · have : aliveSet (Scenred.merge c i s) = (aliveSet s).erase rem := by
      unfold aliveSet
      ext k
      simp only [Scenred.merge, hrem, Finset.mem_filter, Finset.mem_univ, true_and, Finset.mem_erase]
      by_cases hk : k = rem
      · rw [if_pos hk]; simp [hk]
      · rw [if_neg hk]; tauto
    rw [this, Finset.card_erase_of_mem (by unfold aliveSet; simp [hr])]
    omega

theorem merge_S_later (t : Nat) (ht : i < t) (k : Fin n) : (merge c i s).S t k = s.S t k := by
  simp only [merge, mergeS]
  rw [if_neg (by omega), if_neg (by omega)]

theorem merge_alive_sub (k : Fin n) (h : (merge c i s).alive k = true) : s.alive k = true := by
  simp only [merge] at h
  split at h
  · cases h
  · exact h

end

section
variable {c : Cfg n} {S0 : Nat → Fin n → V} {i : Nat}

/-- What a step does to the representatives. -/
structure Refines (i : Nat) (own own' : Fin n → Fin n) (s s' : St n V) : Prop where
  own : ∀ k, own' k = own' (own k)
  later : ∀ t, i < t → ∀ k, s'.S t k = s.S t k
  sub : ∀ k, s'.alive k = true → s.alive k = true

theorem goOn_two {own : Fin n → Fin n} {s : St n V} (g : Good c) (h : Inv c S0 i own s) {rel : Option ℚ} (hg : goOn c i rel s = true) :
    2 ≤ (aliveSet s).card ∧ nodesAt c i < (aliveSet s).card := by
  unfold goOn at hg
  rw [Bool.and_eq_true, decide_eq_true_eq, h.branches] at hg
  have : 1 ≤ nodesAt c i := by
    unfold nodesAt
    split
    · exact le_refl _
    · exact g.nodes i
  omega

theorem loop_inv (g : Good c) (dmax : ℚ) : ∀ (f : Nat) (rel : Option ℚ) (dp : ℚ) (own : Fin n → Fin n) (s : St n V), Inv c S0 i own s →
    ∃ own', Inv c S0 i own' (loop c i dmax f rel dp s) ∧ Refines i own own' s (loop c i dmax f rel dp s) := by
  intro f
  induction f with
  | zero => intro rel dp own s h; exact ⟨own, h, ⟨fun k => (h.own_alive _ (h.alive_own k)).symm, fun _ _ _ => rfl, fun _ h => h⟩⟩
  | succ f ih =>
    intro rel dp own s h
    simp only [loop]
    split
    · rename_i hg
      have h2 := (goOn_two g h hg).1
      obtain ⟨hm, _⟩ := h.merge g h2
      obtain ⟨hr, ha, hne⟩ := h.choice g h2
      obtain ⟨own', h', r'⟩ := ih (ratio (if tolAt c i = infty then dp else dp + costs c s (idxRem c s)) dmax)
        (if tolAt c i = infty then dp else dp + costs c s (idxRem c s)) _ _ hm
      refine ⟨own', h', ⟨?_, ?_, ?_⟩⟩
      · intro k
        rw [r'.own k]
        rw [r'.own (own k), h.own_alive _ (h.alive_own k)]
      · intro t ht k
        rw [r'.later t ht, merge_S_later t ht]
      · intro k hk
        exact merge_alive_sub k (r'.sub k hk)
    · exact ⟨own, h, ⟨fun k => (h.own_alive _ (h.alive_own k)).symm, fun _ _ _ => rfl, fun _ h => h⟩⟩

theorem loop_card_le (g : Good c) (dmax : ℚ) : ∀ (f : Nat) (rel : Option ℚ) (dp : ℚ) (own : Fin n → Fin n) (s : St n V), Inv c S0 i own s →
    (aliveSet (loop c i dmax f rel dp s)).card ≤ (aliveSet s).card := by
  intro f rel dp own s h
  obtain ⟨_, _, r⟩ := loop_inv g dmax f rel dp own s h
  apply Finset.card_le_card
  intro k hk
  unfold aliveSet at hk ⊢
  rw [Finset.mem_filter] at hk ⊢
  exact ⟨hk.1, r.sub k hk.2⟩

/-- Fixed numbers of nodes and a positive reference distance: the loop reaches the requested number. -/
theorem loop_card (g : Good c) (dmax : ℚ) (ht : tolAt c i = infty) (hd : dmax ≠ 0) : ∀ (f : Nat) (own : Fin n → Fin n) (s : St n V), Inv c S0 i own s →
    (aliveSet s).card ≤ f + nodesAt c i → (aliveSet (loop c i dmax f (some 0) 0 s)).card = min (aliveSet s).card (nodesAt c i) := by
  intro f
  induction f with
  | zero => intro own s _ hf; simp only [loop]; omega
  | succ f ih =>
    intro own s h hf
    simp only [loop]
    have hgo : goOn c i (some 0) s = decide (nodesAt c i < (aliveSet s).card) := by
      unfold goOn
      rw [h.branches, ht]
      simp [infty]
    rw [hgo]
    split
    · rename_i hg
      have hlt : nodesAt c i < (aliveSet s).card := by simpa using hg
      have h2 := (goOn_two g h (hgo.trans hg)).1
      obtain ⟨hm, hc⟩ := h.merge g h2
      have hr : ratio 0 dmax = some 0 := by unfold ratio; rw [if_neg hd, zero_div]
      rw [hr, ih _ _ hm (by omega)]
      omega
    · rename_i hg
      simp only [decide_eq_true_eq] at hg
      omega

/-- With a reference distance of zero the loop makes at most one merge. -/
theorem loop_card_stall (g : Good c) (f : Nat) (rel : Option ℚ) (dp : ℚ) (own : Fin n → Fin n) (s : St n V) (h : Inv c S0 i own s) :
    (aliveSet s).card ≤ (aliveSet (loop c i 0 f rel dp s)).card + 1 := by
  cases f with
  | zero => simp only [loop]; omega
  | succ f =>
    simp only [loop]
    split
    · rename_i hg
      obtain ⟨hm, hc⟩ := h.merge g (goOn_two g h hg).1
      have hstop : ∀ dp', loop c i 0 f (ratio dp' 0) dp' (merge c i s) = merge c i s := by
        intro dp'
        cases f with
        | zero => rfl
        | succ f => simp only [loop]; rw [if_neg]; simp [ratio, goOn]
      rw [hstop]
      omega
    · omega

/-- A positive tolerance with more than the requested number of survivors: at least one merge. -/
theorem loop_card_drops (g : Good c) (dmax : ℚ) (f : Nat) (hf : 1 ≤ f) (own : Fin n → Fin n) (s : St n V) (h : Inv c S0 i own s) (ht : 0 < tolAt c i)
    (hn : nodesAt c i < (aliveSet s).card) : (aliveSet (loop c i dmax f (some 0) 0 s)).card < (aliveSet s).card := by
  cases f with
  | zero => omega
  | succ f =>
    simp only [loop]
    have hgo : goOn c i (some 0) s = true := by
      unfold goOn
      rw [h.branches]
      simp [ht, hn]
    rw [if_pos hgo]
    obtain ⟨hm, hc⟩ := h.merge g (goOn_two g h hgo).1
    have := loop_card_le g dmax f (ratio (if tolAt c i = infty then 0 else 0 + costs c s (idxRem c s)) dmax)
      (if tolAt c i = infty then 0 else 0 + costs c s (idxRem c s)) _ _ hm
    omega

theorem Inv.mono {own : Fin n → Fin n} {s : St n V} {j : Nat} (h : Inv c S0 i own s) (hj : j ≤ i) : Inv c S0 j own s :=
  ⟨h.alive_own, h.own_alive, h.P, h.L, h.D, fun t ht k => h.S t (by omega) k⟩

theorem stepAt_alive (s : St n V) : (stepAt c i s).alive = (loop c i (deltaMax c i s) n (some 0) 0 s).alive := by
  unfold stepAt; simp only; split <;> rfl

theorem stepAt_S (s : St n V) : (stepAt c i s).S = (loop c i (deltaMax c i s) n (some 0) 0 s).S := by
  unfold stepAt; simp only; split <;> rfl

theorem stepAt_inv (g : Good c) {own : Fin n → Fin n} {s : St n V} (h : Inv c S0 i own s) :
    ∃ own', Inv c S0 i own' (stepAt c i s) ∧ Refines i own own' s (stepAt c i s) := by
  obtain ⟨own', h', r⟩ := loop_inv g (deltaMax c i s) n (some 0) 0 own s h
  refine ⟨own', ?_, ⟨r.own, ?_, ?_⟩⟩
  · unfold stepAt
    simp only
    split
    · refine ⟨h'.alive_own, h'.own_alive, h'.P, h'.L, ?_, h'.S⟩
      intro a k ha hk
      simp only at ha hk ⊢
      rw [if_neg (by simp [ha]), h'.D a k ha hk]
    · exact h'
  · intro t ht k; rw [stepAt_S]; exact r.later t ht k
  · intro k hk; rw [stepAt_alive] at hk; exact r.sub k hk

theorem init_inv : Inv c S0 i id (initSt c S0) := by
  refine ⟨fun _ => rfl, fun _ _ => rfl, ?_, ?_, fun _ _ _ _ => rfl, fun _ _ _ => rfl⟩
  · intro a
    simp only [initSt, id]
    rw [Finset.filter_eq' Finset.univ a, if_pos (Finset.mem_univ _), Finset.card_singleton, Nat.cast_one]
  · intro a b _
    simp [initSt]

/-- Representatives after each number of processed steps. -/
theorem after_inv (g : Good c) : ∃ own : Nat → Fin n → Fin n, own 0 = id ∧
    ∀ m, m ≤ c.T → Inv c S0 (c.T - m) (own m) (after c S0 m) ∧
      (m < c.T → Refines (c.T - 1 - m) (own m) (own (m + 1)) (after c S0 m) (after c S0 (m + 1))) := by
  have step : ∀ m own, m < c.T → Inv c S0 (c.T - m) own (after c S0 m) →
      ∃ own', Inv c S0 (c.T - (m + 1)) own' (after c S0 (m + 1)) ∧ Refines (c.T - 1 - m) own own' (after c S0 m) (after c S0 (m + 1)) := by
    intro m own hm h
    have h' : Inv c S0 (c.T - 1 - m) own (after c S0 m) := h.mono (by omega)
    obtain ⟨own', h1, h2⟩ := stepAt_inv g h'
    refine ⟨own', ?_, h2⟩
    rw [show c.T - (m + 1) = c.T - 1 - m by omega]
    exact h1
  classical
  let nxt : Nat → (Fin n → Fin n) → (Fin n → Fin n) := fun m own =>
    if h : m < c.T ∧ Inv c S0 (c.T - m) own (after c S0 m) then (step m own h.1 h.2).choose else own
  let own : Nat → Fin n → Fin n := fun m => Nat.rec id nxt m
  have hI : ∀ m, m ≤ c.T → Inv c S0 (c.T - m) (own m) (after c S0 m) := by
    intro m
    induction m with
    | zero => intro _; exact init_inv
    | succ m ih =>
      intro hm
      have hh : m < c.T ∧ Inv c S0 (c.T - m) (own m) (after c S0 m) := ⟨by omega, ih (by omega)⟩
      have : own (m + 1) = (step m (own m) hh.1 hh.2).choose := by
        show nxt m (own m) = _
        simp only [nxt]
        rw [dif_pos hh]
      rw [this]
      exact (step m (own m) hh.1 hh.2).choose_spec.1
  refine ⟨own, rfl, fun m hm => ⟨hI m hm, ?_⟩⟩
  intro hlt
  have hh : m < c.T ∧ Inv c S0 (c.T - m) (own m) (after c S0 m) := ⟨hlt, hI m hm⟩
  have : own (m + 1) = (step m (own m) hh.1 hh.2).choose := by
    show nxt m (own m) = _
    simp only [nxt]
    rw [dif_pos hh]
  rw [this]
  exact (step m (own m) hh.1 hh.2).choose_spec.2

end

end PyF.Scenred

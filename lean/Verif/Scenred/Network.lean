import Verif.Scenred.Props
import Mathlib.Data.List.Pairwise

namespace PyF.Scenred
open PyF

variable {n : Nat} {V : Type} [DecidableEq V] {σ : Type}

/-- Specification: keep the first element of each class of equal value. -/
def firsts (f : σ → V) : List σ → List σ
  | [] => []
  | s :: ss => s :: (firsts f ss).filter (fun x => decide (f x ≠ f s))

theorem firsts_sub (f : σ → V) (l : List σ) : (firsts f l).Sublist l := by
  induction l with
  | nil => exact List.Sublist.refl _
  | cons s ss ih => exact List.Sublist.cons_cons s (List.filter_sublist.trans ih)

theorem firsts_pairwise (f : σ → V) (l : List σ) : (firsts f l).Pairwise (fun a b => f a ≠ f b) := by
  induction l with
  | nil => exact List.Pairwise.nil
  | cons s ss ih =>
    refine List.Pairwise.cons ?_ (ih.filter _)
    intro b hb
    have := (List.mem_filter.1 hb).2
    simp only [decide_eq_true_eq] at this
    exact fun h => this h.symm

theorem firsts_complete (f : σ → V) (l : List σ) : ∀ s ∈ l, ∃ r ∈ firsts f l, f r = f s := by
  induction l with
  | nil => intro s h; cases h
  | cons a ss ih =>
    intro s hs
    rcases List.mem_cons.1 hs with rfl | hs
    · exact ⟨s, List.mem_cons_self, rfl⟩
    · obtain ⟨r, hr, he⟩ := ih s hs
      by_cases h : f r = f a
      · exact ⟨a, List.mem_cons_self, by rw [← he, h]⟩
      · exact ⟨r, List.mem_cons_of_mem _ (List.mem_filter.2 ⟨hr, by simpa using h⟩), he⟩

theorem firsts_id (f : σ → V) (l : List σ) (h : l.Pairwise (fun a b => f a ≠ f b)) : firsts f l = l := by
  induction l with
  | nil => rfl
  | cons a ss ih =>
    rw [List.pairwise_cons] at h
    simp only [firsts]
    rw [ih h.2, List.filter_eq_self.2]
    intro b hb
    simpa using fun e => h.1 b hb e.symm

theorem findIdx?_append_of_none {α : Type} (p : α → Bool) (l m : List α) (hm : ∀ x ∈ m, p x = false) :
    (l ++ m).findIdx? p = l.findIdx? p := by
  rw [List.findIdx?_append]
  have : m.findIdx? p = none := by
    rw [List.findIdx?_eq_none_iff]
    exact hm
  rw [this]
  simp

/-- What `addPoints` appends at time `t ≥ 1` to a tree ending at time `t - 1`. -/
def newNodes (P : Nat → σ → ℚ) (S : Nat → σ → V) (t : Nat) (N : List (Node V)) (l : List σ) : List (Node V) :=
  l.map (fun s => { t := t, p := P t s, v := S t s, parent := N.findIdx? (fun x => x.t == t - 1 && decide (x.v = S (t - 1) s)) })

theorem addPoints_eq (P : Nat → σ → ℚ) (S : Nat → σ → V) (t : Nat) (ht : 1 ≤ t) (N : List (Node V)) (hN : ∀ x ∈ N, x.t < t) (l : List σ)
    (hl : ∀ s ∈ l, P t s ≠ 0 → ∃ x ∈ N, x.t = t - 1 ∧ x.v = S (t - 1) s) (done : List σ) :
    addPoints P S t (N ++ newNodes P S t N done) l =
      .ok (N ++ newNodes P S t N (done ++ (firsts (S t) (l.filter (fun s => decide (P t s ≠ 0)))).filter (fun s => decide (∀ r ∈ done, S t s ≠ S t r)))) := by
  induction l generalizing done with
  | nil => simp [addPoints, firsts]
  | cons s ss ih =>
    have ihs := fun d => ih (fun r hr => hl r (List.mem_cons_of_mem _ hr)) d
    have hany : (N ++ newNodes P S t N done).any (fun x => x.t == t && decide (x.v = S t s)) = true ↔ ∃ r ∈ done, S t s = S t r := by
      rw [List.any_eq_true]
      constructor
      · rintro ⟨x, hx, hc⟩
        simp only [Bool.and_eq_true, beq_iff_eq, decide_eq_true_eq] at hc
        rcases List.mem_append.1 hx with hx | hx
        · have := hN x hx; omega
        · unfold newNodes at hx
          obtain ⟨r, hr, rfl⟩ := List.mem_map.1 hx
          exact ⟨r, hr, hc.2.symm⟩
      · rintro ⟨r, hr, he⟩
        refine ⟨_, List.mem_append_right _ (List.mem_map.2 ⟨r, hr, rfl⟩), ?_⟩
        simp [he]
    simp only [addPoints]
    by_cases hp : P t s = 0
    · have : addPoint P S t (N ++ newNodes P S t N done) s = .ok (N ++ newNodes P S t N done) := by
        unfold addPoint; rw [if_pos hp]
      rw [this]
      simp only
      rw [ihs done, List.filter_cons_of_neg (by simpa using hp)]
    · rw [List.filter_cons_of_pos (by simpa using hp)]
      simp only [firsts]
      by_cases hd : ∃ r ∈ done, S t s = S t r
      · have : addPoint P S t (N ++ newNodes P S t N done) s = .ok (N ++ newNodes P S t N done) := by
          unfold addPoint; rw [if_neg hp, if_pos (hany.2 hd)]
        rw [this]
        simp only
        rw [ihs done]
        obtain ⟨r0, hr0, he0⟩ := hd
        rw [List.filter_cons_of_neg (by
          simp only [decide_eq_true_eq, not_forall]
          exact ⟨r0, hr0, fun h => h he0⟩)]
        congr 4
        rw [List.filter_filter]
        apply List.filter_congr
        intro x _
        by_cases hx : S t x = S t s
        · have : ¬ ∀ r ∈ done, S t x ≠ S t r := fun h => h r0 hr0 (hx.trans he0)
          rw [decide_eq_false this, Bool.false_and]
        · rw [decide_eq_true hx, Bool.and_true]
      · obtain ⟨x0, hx0, hx0t, hx0v⟩ := hl s List.mem_cons_self hp
        have hfind : (N ++ newNodes P S t N done).findIdx? (fun x => x.t == t - 1 && decide (x.v = S (t - 1) s)) =
            N.findIdx? (fun x => x.t == t - 1 && decide (x.v = S (t - 1) s)) := by
          apply findIdx?_append_of_none
          intro x hx
          unfold newNodes at hx
          obtain ⟨r, _, rfl⟩ := List.mem_map.1 hx
          have : (t == t - 1) = false := by rw [beq_eq_false_iff_ne]; omega
          simp [this]
        obtain ⟨j, hj⟩ : ∃ j, N.findIdx? (fun x => x.t == t - 1 && decide (x.v = S (t - 1) s)) = some j := by
          rw [← Option.isSome_iff_exists, List.findIdx?_isSome, List.any_eq_true]
          exact ⟨x0, hx0, by simp [hx0t, hx0v]⟩
        have : addPoint P S t (N ++ newNodes P S t N done) s = .ok (N ++ newNodes P S t N (done ++ [s])) := by
          unfold addPoint
          rw [if_neg hp, if_neg (by rw [hany]; exact hd), hfind, hj]
          simp only
          unfold newNodes
          rw [List.map_append, List.append_assoc]
          simp [hj]
        rw [this]
        simp only
        rw [ihs (done ++ [s])]
        rw [List.filter_cons_of_pos (by
          simp only [decide_eq_true_eq]
          intro r hr he
          exact hd ⟨r, hr, he⟩)]
        rw [List.append_assoc, List.singleton_append]
        congr 5
        rw [List.filter_filter]
        apply List.filter_congr
        intro x _
        have : (∀ r ∈ done ++ [s], S t x ≠ S t r) ↔ (∀ r ∈ done, S t x ≠ S t r) ∧ S t x ≠ S t s := by
          constructor
          · intro h
            exact ⟨fun r hr => h r (List.mem_append_left _ hr), h s (List.mem_append_right _ (List.mem_singleton_self _))⟩
          · rintro ⟨h1, h2⟩ r hr
            rcases List.mem_append.1 hr with hr | hr
            · exact h1 r hr
            · rw [List.mem_singleton] at hr
              rw [hr]; exact h2
        rw [← Bool.decide_and]
        simp only [this]

/-- The points present at time `t`, in column order. -/
def present (P : Nat → σ → ℚ) (cols : List σ) (t : Nat) : List σ := cols.filter (fun s => decide (P t s ≠ 0))

/-- Structure of a tree with the levels `0, …, k` built from `P`, `S`. -/
structure Tree (P : Nat → σ → ℚ) (S : Nat → σ → V) (cols : List σ) (root : Node V) (k : Nat) (N : List (Node V)) : Prop where
  head : N[0]? = some root
  times : ∀ x ∈ N, x.t ≤ k
  level0 : N.filter (fun x => x.t == 0) = [root]
  level : ∀ t, 1 ≤ t → t ≤ k → ∃ par : σ → Nat,
    N.filter (fun x => x.t == t) =
      (firsts (S t) (present P cols t)).map (fun s => { t := t, p := P t s, v := S t s, parent := some (par s) }) ∧
    ∀ s ∈ present P cols t, ∃ x, N[par s]? = some x ∧ x.t = t - 1 ∧ x.v = S (t - 1) s
  sorted : N.Pairwise (fun a b => a.t ≤ b.t)
  distinct : N.Pairwise (fun a b => ¬ (a.t = b.t ∧ a.v = b.v))

theorem Tree.has {P : Nat → σ → ℚ} {S : Nat → σ → V} {cols : List σ} {root : Node V} {k : Nat} {N : List (Node V)}
    (h : Tree P S cols root k N) (hr : root.t = 0) (hv : ∀ s ∈ cols, P 0 s ≠ 0 → root.v = S 0 s) (t : Nat) (htk : t ≤ k) (s : σ) (hs : s ∈ cols) (hp : P t s ≠ 0) :
    ∃ x ∈ N, x.t = t ∧ x.v = S t s := by
  rcases Nat.eq_zero_or_pos t with rfl | ht
  · have : root ∈ N := by
      have := h.level0
      have hm : root ∈ N.filter (fun x => x.t == 0) := by rw [this]; exact List.mem_singleton_self _
      exact (List.mem_filter.1 hm).1
    exact ⟨root, this, hr, hv s hs hp⟩
  · obtain ⟨par, he, _⟩ := h.level t ht htk
    obtain ⟨r, hr, hrs⟩ := firsts_complete (S t) (present P cols t) s (List.mem_filter.2 ⟨hs, by simpa using hp⟩)
    have hm : (⟨t, P t r, S t r, some (par r)⟩ : Node V) ∈ N.filter (fun x => x.t == t) := by
      rw [he]; exact List.mem_map.2 ⟨r, hr, rfl⟩
    exact ⟨_, (List.mem_filter.1 hm).1, rfl, hrs⟩

theorem addTimes_tree (P : Nat → σ → ℚ) (S : Nat → σ → V) (cols : List σ) (root : Node V) (hr : root.t = 0)
    (k : Nat) (hroot : ∀ s ∈ cols, P 0 s ≠ 0 → root.v = S 0 s)
    (hpast : ∀ t, 1 ≤ t → t ≤ k → ∀ s ∈ cols, P t s ≠ 0 → ∃ r ∈ cols, P (t - 1) r ≠ 0 ∧ S (t - 1) r = S (t - 1) s) :
    ∃ N, addTimes P S cols [root] k = .ok N ∧ Tree P S cols root k N := by
  induction k with
  | zero =>
    refine ⟨[root], rfl, ?_⟩
    constructor
    · rfl
    · intro x hx
      rw [List.mem_singleton] at hx
      rw [hx, hr]
    · simp [hr]
    · intro t h1 h2; omega
    · exact List.pairwise_singleton _ _
    · exact List.pairwise_singleton _ _
  | succ k ih =>
    obtain ⟨N, hN, hT⟩ := ih (fun t h1 h2 => hpast t h1 (by omega))
    have hlt : ∀ x ∈ N, x.t < k + 1 := fun x hx => by have := hT.times x hx; omega
    have hex : ∀ s ∈ cols, P (k + 1) s ≠ 0 → ∃ x ∈ N, x.t = k + 1 - 1 ∧ x.v = S (k + 1 - 1) s := by
      intro s hs hp
      obtain ⟨r, hrc, hrp, hre⟩ := hpast (k + 1) (by omega) (le_refl _) s hs hp
      rw [Nat.add_sub_cancel] at hrp hre ⊢
      obtain ⟨x, hx, h1, h2⟩ := hT.has hr hroot k (le_refl _) r hrc hrp
      exact ⟨x, hx, h1, by rw [h2, hre]⟩
    have hadd := addPoints_eq P S (k + 1) (by omega) N hlt cols hex []
    simp only [newNodes, List.map_nil, List.append_nil, List.nil_append] at hadd
    have hfe : List.filter (fun s => decide (∀ r ∈ ([] : List σ), S (k + 1) s ≠ S (k + 1) r)) (firsts (S (k + 1)) (cols.filter (fun s => decide (P (k + 1) s ≠ 0)))) =
        firsts (S (k + 1)) (cols.filter (fun s => decide (P (k + 1) s ≠ 0))) := by
      rw [List.filter_eq_self]; intro a _; simp
    rw [hfe] at hadd
    set new := (firsts (S (k + 1)) (cols.filter (fun s => decide (P (k + 1) s ≠ 0)))).map (fun s => ({ t := k + 1, p := P (k + 1) s, v := S (k + 1) s, parent := N.findIdx? (fun x => x.t == k + 1 - 1 && decide (x.v = S (k + 1 - 1) s)) } : Node V)) with hnew
    have hnewt : ∀ x ∈ new, x.t = k + 1 := by
      intro x hx
      obtain ⟨s, _, rfl⟩ := List.mem_map.1 hx
      rfl
    have hget : ∀ (j : Nat) (x : Node V), N[j]? = some x → (N ++ new)[j]? = some x := by
      intro j x hj
      have : j < N.length := by
        by_contra hc
        rw [List.getElem?_eq_none (by omega)] at hj
        cases hj
      rw [List.getElem?_append_left this, hj]
    have hfnew : ∀ t, t ≤ k → new.filter (fun x => x.t == t) = [] := by
      intro t ht
      rw [List.filter_eq_nil_iff]
      intro x hx
      rw [hnewt x hx]
      simp; omega
    refine ⟨N ++ new, ?_, ?_⟩
    · simp only [addTimes]
      rw [hN]
      exact hadd
    constructor
    · exact hget 0 root hT.head
    · intro x hx
      rcases List.mem_append.1 hx with h | h
      · have := hT.times x h; omega
      · rw [hnewt x h]
    · rw [List.filter_append, hT.level0, hfnew 0 (by omega), List.append_nil]
    · intro t h1 h2
      by_cases htk : t ≤ k
      · obtain ⟨par, he, hp⟩ := hT.level t h1 htk
        refine ⟨par, ?_, ?_⟩
        · rw [List.filter_append, he, hfnew t htk, List.append_nil]
        · intro s hs
          obtain ⟨x, hx, h3, h4⟩ := hp s hs
          exact ⟨x, hget _ _ hx, h3, h4⟩
      · have htk1 : t = k + 1 := by omega
        subst htk1
        have hsome : ∀ s ∈ present P cols (k + 1), ∃ (j : Nat) (x : Node V), N.findIdx? (fun x => x.t == k + 1 - 1 && decide (x.v = S (k + 1 - 1) s)) = some j ∧ N[j]? = some x ∧
            x.t = k + 1 - 1 ∧ x.v = S (k + 1 - 1) s := by
          intro s hs
          have hs' := List.mem_filter.1 hs
          obtain ⟨x, hx, h3, h4⟩ := hex s hs'.1 (by simpa using hs'.2)
          cases hf : N.findIdx? (fun x => x.t == k + 1 - 1 && decide (x.v = S (k + 1 - 1) s)) with
          | none =>
            rw [List.findIdx?_eq_none_iff] at hf
            have := hf x hx
            simp [h3, h4] at this
          | some j =>
            rw [List.findIdx?_eq_some_iff_getElem] at hf
            obtain ⟨hlt', hpj, _⟩ := hf
            simp only [Bool.and_eq_true, beq_iff_eq, decide_eq_true_eq] at hpj
            exact ⟨j, N[j], rfl, List.getElem?_eq_getElem hlt', hpj.1, hpj.2⟩
        refine ⟨fun s => (N.findIdx? (fun x => x.t == k + 1 - 1 && decide (x.v = S (k + 1 - 1) s))).getD 0, ?_, ?_⟩
        · rw [List.filter_append]
          have h5 : N.filter (fun x => x.t == k + 1) = [] := by
            rw [List.filter_eq_nil_iff]
            intro x hx
            have := hlt x hx
            simp; omega
          have h6 : new.filter (fun x => x.t == k + 1) = new := by
            rw [List.filter_eq_self]
            intro x hx
            rw [hnewt x hx]; simp
          rw [h5, h6, List.nil_append, hnew]
          apply List.map_congr_left
          intro s hs
          obtain ⟨j, x, hj, _⟩ := hsome s ((firsts_sub _ _).subset hs)
          simp only [hj, Option.getD_some]
        · intro s hs
          obtain ⟨j, x, hj, hx, h3, h4⟩ := hsome s hs
          refine ⟨x, ?_, h3, h4⟩
          simp only [hj, Option.getD_some]
          exact hget _ _ hx
    · rw [List.pairwise_append]
      refine ⟨hT.sorted, ?_, ?_⟩
      · rw [List.pairwise_iff_forall_sublist]
        intro a b hab
        rw [hnewt a (hab.subset (by simp)), hnewt b (hab.subset (by simp))]
      · intro a ha b hb
        rw [hnewt b hb]
        have := hlt a ha
        omega
    · rw [List.pairwise_append]
      refine ⟨hT.distinct, ?_, ?_⟩
      · rw [hnew, List.pairwise_map]
        exact (firsts_pairwise _ _).imp (fun h hc => h hc.2)
      · intro a ha b hb hc
        rw [hnewt b hb] at hc
        have := hlt a ha
        omega

/-! ### The network of the reduced scenarios -/

/-- Survivors at step `t`, in column order. -/
def alive (c : Cfg n) (S0 : Nat → Fin n → V) (t : Nat) : List (Fin n) := (List.finRange n).filter (row c S0 t).alive

omit [DecidableEq V] in
theorem present_eq (c : Cfg n) (S0 : Nat → Fin n → V) (g : Good c) (t : Nat) (ht : t < c.T) :
    present (fun t s => (row c S0 t).P s) (columns c S0) t = alive c S0 t := by
  unfold present columns survivors alive
  rw [List.filter_filter]
  apply List.filter_congr
  intro a _
  have hpos := row_pos c S0 g t ht a
  have hz : (row c S0 t).P a ≠ 0 ↔ (row c S0 t).alive a = true := by
    rw [← hpos]
    constructor
    · intro h
      obtain ⟨own, ho⟩ := C48_reduction_is_a_tree c S0 g
      have : 0 ≤ (row c S0 t).P a := by rw [(ho t ht).2.2.1 a]; positivity
      exact lt_of_le_of_ne this (Ne.symm h)
    · exact ne_of_gt
  by_cases ha : (row c S0 t).alive a = true
  · have hc := alive_chain c S0 g t (c.T - 1 - t) (by omega) a ha
    rw [show t + (c.T - 1 - t) = c.T - 1 by omega] at hc
    simp [hz.2 ha, hc, ha]
  · have : ¬ (row c S0 t).P a ≠ 0 := fun h => ha (hz.1 h)
    simp only [ne_eq, not_not] at this
    simp [this, ha]

omit [DecidableEq V] in
theorem count_eq_length (c : Cfg n) (S0 : Nat → Fin n → V) (t : Nat) : count c S0 t = (alive c S0 t).length := by
  unfold count aliveSet alive
  rw [← List.toFinset_card_of_nodup ((List.nodup_finRange n).filter _)]
  congr 1
  ext a
  simp

theorem network_error (c : Cfg n) (S0 : Nat → Fin n → V) (g : Good c) (hT : 1 ≤ c.T) (h : count c S0 0 ≠ 1) :
    network c S0 = .error .assertionError := by
  unfold network getNetwork
  have he : (columns c S0).filter (fun s => decide (0 < (row c S0 0).P s)) = alive c S0 0 := by
    rw [← present_eq c S0 g 0 (by omega)]
    unfold present
    apply List.filter_congr
    intro a _
    obtain ⟨own, ho⟩ := C48_reduction_is_a_tree c S0 g
    have : 0 ≤ (row c S0 0).P a := by rw [(ho 0 (by omega)).2.2.1 a]; positivity
    simp only [decide_eq_decide]
    exact ⟨ne_of_gt, fun hne => lt_of_le_of_ne this (Ne.symm hne)⟩
  rw [he]
  rw [count_eq_length] at h
  match hh : alive c S0 0 with
  | [] => rfl
  | [a] => rw [hh] at h; exact absurd rfl h
  | _ :: _ :: _ => rfl

theorem network_tree (c : Cfg n) (S0 : Nat → Fin n → V) (g : Good c) (hT : 1 ≤ c.T) (h : count c S0 0 = 1) :
    ∃ a N, alive c S0 0 = [a] ∧ network c S0 = .ok N ∧
      Tree (fun t s => (row c S0 t).P s) (finalS c S0) (columns c S0) { t := 0, p := 1, v := S0 0 a, parent := none } (c.T - 1) N := by
  rw [count_eq_length, List.length_eq_one_iff] at h
  obtain ⟨a, ha⟩ := h
  obtain ⟨own, ho⟩ := C48_reduction_is_a_tree c S0 g
  have hpres := present_eq c S0 g 0 (by omega)
  have hmem : ∀ t, t < c.T → ∀ s, (s ∈ columns c S0 ∧ (row c S0 t).P s ≠ 0) ↔ (row c S0 t).alive s = true := by
    intro t ht s
    have h1 : s ∈ present (fun t s => (row c S0 t).P s) (columns c S0) t ↔ s ∈ alive c S0 t := by rw [present_eq c S0 g t ht]
    unfold present alive at h1
    rw [List.mem_filter, List.mem_filter] at h1
    simpa using h1
  have hself : ∀ t, t < c.T → ∀ s, (row c S0 t).alive s = true → finalS c S0 t s = S0 t s := by
    intro t ht s hs
    rw [(ho t ht).2.2.2.2.2 s, (ho t ht).2.1 s hs]
  have haa : (row c S0 0).alive a = true := by
    have : a ∈ alive c S0 0 := by rw [ha]; exact List.mem_singleton_self _
    exact (List.mem_filter.1 this).2
  have huniq : ∀ s, (row c S0 0).alive s = true → s = a := by
    intro s hs
    have : s ∈ alive c S0 0 := List.mem_filter.2 ⟨List.mem_finRange s, hs⟩
    rw [ha, List.mem_singleton] at this
    exact this
  obtain ⟨N, hN, hTr⟩ := addTimes_tree (fun t s => (row c S0 t).P s) (finalS c S0) (columns c S0)
    { t := 0, p := 1, v := S0 0 a, parent := none } rfl (c.T - 1)
    (by
      intro s hs hp
      have := (hmem 0 (by omega) s).1 ⟨hs, hp⟩
      rw [huniq s this]
      exact (hself 0 (by omega) a haa).symm)
    (by
      intro t h1 h2 s hs hp
      have hal := (hmem t (by omega) s).1 ⟨hs, hp⟩
      have hr := (ho (t - 1) (by omega)).1 s
      refine ⟨own (t - 1) s, ((hmem (t - 1) (by omega) _).2 hr).1, ((hmem (t - 1) (by omega) _).2 hr).2, ?_⟩
      rw [hself (t - 1) (by omega) _ hr, (ho (t - 1) (by omega)).2.2.2.2.2 s])
  refine ⟨a, N, ha, ?_, hTr⟩
  unfold network getNetwork
  have he : (columns c S0).filter (fun s => decide (0 < (row c S0 0).P s)) = [a] := by
    rw [← ha, ← hpres]
    unfold present
    apply List.filter_congr
    intro b _
    have : 0 ≤ (row c S0 0).P b := by rw [(ho 0 (by omega)).2.2.1 b]; positivity
    simp only [decide_eq_decide]
    exact ⟨ne_of_gt, fun hne => lt_of_le_of_ne this (Ne.symm hne)⟩
  rw [he]
  simp only
  rw [hself 0 (by omega) a haa]
  exact hN

end PyF.Scenred

import Verif.GlobalForm.Model
import Verif.Transform.Causal
import Mathlib.Data.List.Forall2
import Mathlib.Data.List.Nodup

namespace PyF.GlobalForm
open PyF.Names PyF.Transform PyF.Fmt

/-! ### C32: single-level tables -/

/-- A column is private when no transformer refers to it. -/
def Private (trNames : List (List Str)) (n : Str) : Prop := n = target ∨ ∀ l ∈ trNames, n ∉ l

/-- The contract of iterating over a set: some permutation. -/
def SetOrder (ord : List Str → List Str) : Prop := ∀ l, (ord l).Perm l

theorem mem_transformed {ord : List Str → List Str} (ho : SetOrder ord) (trNames : List (List Str)) (n : Str) :
    n ∈ transformedCols ord trNames ↔ ¬ Private trNames n := by
  unfold transformedCols Private
  rw [(ho _).mem_iff, List.mem_filter, List.mem_dedup, List.mem_flatten]
  simp only [decide_eq_true_eq]
  constructor
  · rintro ⟨⟨l, hl, hn⟩, ht⟩ (h | h)
    · exact ht h
    · exact h l hl hn
  · intro h
    refine ⟨?_, fun e => h (Or.inl e)⟩
    by_contra hc
    exact h (Or.inr (fun l hl hn => hc ⟨l, hl, hn⟩))

theorem getCols_ok {x : List (Str × Col)} {ns : List Str} {r : List (Str × Col)} (h : getCols x ns = .ok r) :
    r.map Prod.fst = ns ∧ ∀ p ∈ r, p ∈ x := by
  induction ns generalizing r with
  | nil => simp only [getCols, Except.ok.injEq] at h; subst h; simp
  | cons n ns ih =>
    unfold getCols at h
    cases h1 : x.find? (fun p => p.1 = n) with
    | none => rw [h1] at h; cases h
    | some p =>
      rw [h1] at h
      cases h2 : getCols x ns with
      | error e => rw [h2] at h; cases h
      | ok r' =>
        rw [h2] at h
        injection h with h
        subst h
        obtain ⟨i1, i2⟩ := ih h2
        have hp := List.find?_some h1
        refine ⟨by simp [i1, of_decide_eq_true hp], ?_⟩
        intro q hq
        rcases List.mem_cons.1 hq with rfl | hq
        · exact List.mem_of_find?_eq_some h1
        · exact i2 q hq

/-- C32: the result has exactly one table per private column, in the order of the columns. Its `name` is the column's
name, its first column `target` holds exactly that column, the others are exactly the columns some transformer refers
to (each once), with their values unchanged. -/
theorem C32_one_table_per_series (ord : List Str → List Str) (ho : SetOrder ord) (targetNames trNames : List (List Str))
    (x : List (Str × Col)) (out : List Series) (h : preprocess ord targetNames trNames x = .ok out) :
    ∃ priv : List (Str × Col), priv.Sublist x ∧ (∀ p ∈ x, p ∈ priv ↔ Private trNames p.1) ∧
      List.Forall₂ (fun (p : Str × Col) (s : Series) => s.name = p.1 ∧ ∃ shared, s.cols = (target, p.2) :: shared ∧
        (∀ q ∈ shared, q ∈ x) ∧ (shared.map Prod.fst).Nodup ∧ ∀ n, n ∈ shared.map Prod.fst ↔ ¬ Private trNames n) priv out := by
  unfold preprocess at h
  split at h
  · cases h
  · set tc := transformedCols ord trNames with htc
    have hmem : ∀ n, n ∈ tc ↔ ¬ Private trNames n := mem_transformed ho trNames
    refine ⟨x.filter (fun p => p.1 ∉ tc), List.filter_sublist, ?_, ?_⟩
    · intro p hp
      rw [List.mem_filter]
      simp only [hp, true_and, decide_eq_true_eq, hmem, not_not]
    · unfold single at h
      simp only at h
      split at h
      · rename_i he
        simp only [Except.ok.injEq] at h
        subst h
        rw [he]
        exact .nil
      · split at h
        · cases h
        · rename_i shared hs
          simp only [Except.ok.injEq] at h
          subst h
          obtain ⟨g1, g2⟩ := getCols_ok hs
          rw [List.forall₂_map_right_iff, List.forall₂_same]
          intro p _
          refine ⟨rfl, shared, rfl, g2, ?_, ?_⟩
          · rw [g1, htc]
            unfold transformedCols
            exact (ho _).nodup_iff.2 ((List.nodup_dedup _).filter _)
          · intro n
            rw [g1, hmem]

/-- C32 (each series once): with distinct column names, the tables have distinct names. -/
theorem C32_series_distinct (ord : List Str → List Str) (ho : SetOrder ord) (targetNames trNames : List (List Str))
    (x : List (Str × Col)) (hnd : (x.map Prod.fst).Nodup) (out : List Series)
    (h : preprocess ord targetNames trNames x = .ok out) : (out.map Series.name).Nodup := by
  obtain ⟨priv, hsub, -, hf⟩ := C32_one_table_per_series ord ho targetNames trNames x out h
  have hf' : List.Forall₂ (fun (p : Str × Col) (s : Series) => s.name = p.1) priv out := hf.imp (fun _ _ h => h.1)
  have : out.map Series.name = priv.map Prod.fst := by
    clear hsub hf h
    induction hf' with
    | nil => rfl
    | cons hr _ ih => rw [List.map_cons, List.map_cons, hr, ih]
  rw [this]
  exact hnd.sublist (hsub.map _)

/-- C32 (nothing lost): two tables over the same column names with the same result are equal on every column, provided
some column is private; without a private column nothing at all is returned. -/
theorem C32_table_recoverable (ord : List Str → List Str) (ho : SetOrder ord) (targetNames trNames : List (List Str))
    (x y : List (Str × Col)) (hn : x.map Prod.fst = y.map Prod.fst) (hnd : (x.map Prod.fst).Nodup) (out : List Series)
    (hx : preprocess ord targetNames trNames x = .ok out) (hy : preprocess ord targetNames trNames y = .ok out)
    (hp : ∃ p ∈ x, Private trNames p.1) : x = y := by
  obtain ⟨px, sx, mx, fx⟩ := C32_one_table_per_series ord ho targetNames trNames x out hx
  obtain ⟨py, sy, my, fy⟩ := C32_one_table_per_series ord ho targetNames trNames y out hy
  have uniq : ∀ (l : List (Str × Col)), (l.map Prod.fst).Nodup → ∀ n c d, (n, c) ∈ l → (n, d) ∈ l → c = d := by
    intro l hl n c d h1 h2
    exact (Prod.mk.inj (List.inj_on_of_nodup_map hl h1 h2 rfl)).2
  have hsub : ∀ p ∈ x, p ∈ y := by
    intro p hpx
    by_cases hpr : Private trNames p.1
    · -- private: find its series
      have h1 : p ∈ px := (mx p hpx).2 hpr
      have : ∀ (a : List (Str × Col)) (b : List (Str × Col)) (o : List Series),
          List.Forall₂ (fun (p : Str × Col) (s : Series) => s.name = p.1 ∧ ∃ shared, s.cols = (target, p.2) :: shared ∧
            (∀ q ∈ shared, q ∈ x) ∧ (shared.map Prod.fst).Nodup ∧ ∀ n, n ∈ shared.map Prod.fst ↔ ¬ Private trNames n) a o →
          List.Forall₂ (fun (p : Str × Col) (s : Series) => s.name = p.1 ∧ ∃ shared, s.cols = (target, p.2) :: shared ∧
            (∀ q ∈ shared, q ∈ y) ∧ (shared.map Prod.fst).Nodup ∧ ∀ n, n ∈ shared.map Prod.fst ↔ ¬ Private trNames n) b o → a = b := by
        intro a b o ha
        induction ha generalizing b with
        | nil => intro hb; cases hb; rfl
        | cons hr _ ih =>
          intro hb
          cases hb with
          | cons hr' hb' =>
            rw [ih _ hb']
            obtain ⟨n1, s1, c1, -⟩ := hr
            obtain ⟨n2, s2, c2, -⟩ := hr'
            congr 1
            refine Prod.ext (n1.symm.trans n2) ?_
            have := c1.symm.trans c2
            simp only [List.cons.injEq, Prod.mk.injEq, true_and] at this
            exact this.1
      have := this px py out fx fy
      rw [this] at h1
      exact sy.subset h1
    · obtain ⟨p0, h0, hp0⟩ := hp
      have h1 : p0 ∈ px := (mx p0 h0).2 hp0
      cases fx with
      | nil => cases h1
      | @cons a s as ss hr _ =>
        cases fy with
        | @cons b _ bs _ hr' _ =>
          obtain ⟨-, sh, c1, m1, -, k1⟩ := hr
          obtain ⟨-, sh', c2, m2, -, k2⟩ := hr'
          have := c1.symm.trans c2
          simp only [List.cons.injEq] at this
          have hsh := this.2
          subst hsh
          have hin := (k1 p.1).2 hpr
          obtain ⟨q, hq, hqe⟩ := List.mem_map.1 hin
          have hqx := m1 q hq
          have hpq : p = q := by
            obtain ⟨pn, pc⟩ := p
            obtain ⟨qn, qc⟩ := q
            simp only at hqe
            subst hqe
            rw [uniq x hnd _ _ _ hpx hqx]
          rw [hpq]
          exact m2 q hq
  -- same names, distinct, included: equal
  have hnd' : (y.map Prod.fst).Nodup := hn ▸ hnd
  clear mx my fx fy sx sy hx hy hp
  apply List.ext_getElem
  · simpa using congrArg List.length hn
  · intro i h1 h2
    have hpi := hsub x[i] (List.getElem_mem h1)
    have e1 : x[i].1 = y[i].1 := by
      have := congrArg (fun l => l[i]?) hn
      simpa [List.getElem?_map, h1, h2] using this
    have := uniq y hnd' y[i].1 x[i].2 y[i].2 (by rw [← e1]; exact hpi) (List.getElem_mem h2)
    exact Prod.ext e1 this

/-- The target check accepts exactly the target transformers that all name 'target', equally often and at least once. -/
theorem C32_target_check (names : List (List Str)) :
    checkTargets names = .ok () ↔ names ≠ [] ∧ ∃ k, 1 ≤ k ∧ ∀ l ∈ names, l = List.replicate k "target".toList := by
  rw [show ("target".toList : Str) = target from rfl]
  unfold checkTargets
  by_cases hr : ∀ a ∈ names, ∀ b ∈ names, a.length = b.length
  · rw [if_neg (by
      intro h
      rw [List.any_eq_true] at h
      obtain ⟨a, ha, h⟩ := h
      rw [List.any_eq_true] at h
      obtain ⟨b, hb, h⟩ := h
      exact of_decide_eq_true h (hr a ha b hb))]
    refine Iff.trans (b := names.flatten.dedup = [target]) ?_ ?_
    · split
      · rename_i h; rw [h]; simp
      · rename_i n h
        rw [h]
        by_cases hn : n = target <;> simp [hn]
      · rename_i h1 h2
        simp only [reduceCtorEq, false_iff]
        intro e
        exact h2 _ e
    constructor
    · intro h
      have hm : ∀ n, n ∈ names.flatten ↔ n = target := by
        intro n
        rw [← List.mem_dedup, h, List.mem_singleton]
      have ht := (hm target).2 rfl
      rw [List.mem_flatten] at ht
      obtain ⟨l, hl, htl⟩ := ht
      refine ⟨List.ne_nil_of_mem hl, l.length, List.length_pos_of_mem htl, ?_⟩
      intro l' hl'
      rw [List.eq_replicate_iff]
      exact ⟨hr l' hl' l hl, fun n hn => (hm n).1 (List.mem_flatten.2 ⟨l', hl', hn⟩)⟩
    · rintro ⟨hne, k, hk, hl⟩
      have hm : ∀ n, n ∈ names.flatten ↔ n = target := by
        intro n
        rw [List.mem_flatten]
        constructor
        · rintro ⟨l, h1, h2⟩
          rw [hl l h1] at h2
          exact List.eq_of_mem_replicate h2
        · rintro rfl
          obtain ⟨l, h1⟩ := List.exists_mem_of_ne_nil names hne
          refine ⟨l, h1, ?_⟩
          rw [hl l h1]
          exact List.mem_replicate.2 ⟨by omega, rfl⟩
      have hnd := List.nodup_dedup names.flatten
      have hm' : ∀ n, n ∈ names.flatten.dedup ↔ n = target := fun n => by rw [List.mem_dedup, hm]
      generalize names.flatten.dedup = d at hnd hm'
      match d, hnd, hm' with
      | [], _, hm' => exact absurd ((hm' target).2 rfl) (by simp)
      | [a], _, hm' => rw [(hm' a).1 (by simp)]
      | a :: b :: t, hnd, hm' =>
        have h1 := (hm' a).1 (by simp)
        have h2 := (hm' b).1 (by simp)
        rw [h1, h2] at hnd
        simp at hnd
  · rw [if_pos (by
      push Not at hr
      obtain ⟨a, ha, b, hb, hab⟩ := hr
      rw [List.any_eq_true]
      refine ⟨a, ha, ?_⟩
      rw [List.any_eq_true]
      exact ⟨b, hb, decide_eq_true hab⟩)]
    simp only [reduceCtorEq, false_iff]
    rintro ⟨-, k, -, hl⟩
    exact hr (fun a ha b hb => by rw [hl a ha, hl b hb])

/-- C32 (acceptance): the only admissible target is 'target', and when there is a private column every column that a
transformer refers to (other than 'target') must be in the frame. -/
theorem C32_accepts_iff (ord : List Str → List Str) (ho : SetOrder ord) (targetNames trNames : List (List Str))
    (x : List (Str × Col)) :
    (∃ out, preprocess ord targetNames trNames x = .ok out) ↔
      (targetNames ≠ [] ∧ ∃ k, 1 ≤ k ∧ ∀ l ∈ targetNames, l = List.replicate k "target".toList) ∧
      ((∃ p ∈ x, Private trNames p.1) → ∀ n, ¬ Private trNames n → ∃ c, (n, c) ∈ x) := by
  have hget : ∀ ns : List Str, (∃ r, getCols x ns = .ok r) ↔ ∀ n ∈ ns, ∃ c, (n, c) ∈ x := by
    intro ns
    induction ns with
    | nil => simp [getCols]
    | cons n ns ih =>
      unfold getCols
      simp only [List.mem_cons, forall_eq_or_imp]
      cases h1 : x.find? (fun p => p.1 = n) with
      | none =>
        constructor
        · rintro ⟨_, h⟩; cases h
        · rintro ⟨⟨c, hc⟩, -⟩
          exact absurd (List.find?_eq_none.1 h1 _ hc) (by simp)
      | some p =>
        have h4 := List.find?_some h1
        have h3 : p.1 = n := of_decide_eq_true h4
        have hp : ∃ c, (n, c) ∈ x := ⟨p.2, by rw [← h3]; exact List.mem_of_find?_eq_some h1⟩
        rw [← ih]
        constructor
        · rintro ⟨_, h⟩
          refine ⟨hp, ?_⟩
          cases h2 : getCols x ns with
          | error e => rw [h2] at h; cases h
          | ok r => exact ⟨r, rfl⟩
        · rintro ⟨-, r, h2⟩
          rw [h2]
          exact ⟨_, rfl⟩
  rw [← C32_target_check]
  unfold preprocess
  cases hc : checkTargets targetNames with
  | error e => simp
  | ok u =>
    simp only [true_and]
    unfold single
    simp only
    have hmem := mem_transformed ho trNames
    split
    · rename_i he
      constructor
      · rintro - ⟨p, hp, hpr⟩
        have : p ∈ x.filter (fun p => p.1 ∉ transformedCols ord trNames) := by
          rw [List.mem_filter]
          simp only [hp, true_and, decide_eq_true_eq, hmem, not_not]
          exact hpr
        rw [he] at this
        cases this
      · intro _; exact ⟨_, rfl⟩
    · rename_i hne
      have hex : ∃ p ∈ x, Private trNames p.1 := by
        cases hf : x.filter (fun p => p.1 ∉ transformedCols ord trNames) with
        | nil => exact absurd hf (by intro e; exact hne e)
        | cons p l =>
          have : p ∈ x.filter (fun p => p.1 ∉ transformedCols ord trNames) := by rw [hf]; exact List.mem_cons_self
          rw [List.mem_filter] at this
          refine ⟨p, this.1, ?_⟩
          have h5 := of_decide_eq_true this.2
          rw [hmem, not_not] at h5
          exact h5
      have hgt := hget (transformedCols ord trNames)
      constructor
      · rintro ⟨o, h⟩ - n hn
        cases h2 : getCols x (transformedCols ord trNames) with
        | error e => rw [h2] at h; cases h
        | ok r => exact hgt.1 ⟨r, h2⟩ n ((hmem n).2 hn)
      · intro h
        obtain ⟨r, hr⟩ := hgt.2 (fun n hn => h hex n ((hmem n).1 hn))
        rw [hr]
        exact ⟨_, rfl⟩

/-! ### C32: two-level tables -/

/-- C32 (two levels): a successful call returns one table per private group; in each, the columns of the group come in
order, with exactly the one column no transformer refers to renamed 'target', followed by columns of groups that are
entirely transformed. No private column of another group enters. -/
theorem C32_two_level (ord : List Str → List Str) (ho : SetOrder ord) (tc : List Str) (x : List ((Str × Str) × Col))
    (out : List Series) (h : multi ord tc x = .ok out) :
    ∃ priv : List Str, (∀ p, p ∈ priv ↔ ∃ c col, ((p, c), col) ∈ x ∧ ∃ c' col', ((p, c'), col') ∈ x ∧ c' ∉ tc) ∧ priv.Nodup ∧
      List.Forall₂ (fun (p : Str) (s : Series) => s.name = p ∧ ∃ t col own shared, s.cols = own ++ shared ∧
        ((p, t), col) ∈ x ∧ t ∉ tc ∧ (∀ c col', ((p, c), col') ∈ x → c ∉ tc → (c, col') = (t, col)) ∧
        own = (group x p).map (fun q => if q.1 = t then (target, q.2) else q) ∧
        (∀ q ∈ shared, q.1 ∈ tc ∧ ∃ g, ((g, q.1), q.2) ∈ x ∧ g ∉ priv)) priv out := by
  unfold multi at h
  simp only at h
  set priv := (level0 x).filter (fun c => !((group x c).all (fun q => q.1 ∈ tc))) with hpriv
  set sh := (ord ((level0 x).filter (fun c => (group x c).all (fun q => q.1 ∈ tc)))).flatMap (group x) with hsh
  have hlev : ∀ p, p ∈ level0 x ↔ ∃ c col, ((p, c), col) ∈ x := by
    intro p
    unfold level0
    rw [List.mem_reverse, List.mem_dedup, List.mem_reverse, List.mem_map]
    constructor
    · rintro ⟨q, hq, rfl⟩; exact ⟨q.1.2, q.2, hq⟩
    · rintro ⟨c, col, hq⟩; exact ⟨_, hq, rfl⟩
  have hgrp : ∀ p q, q ∈ group x p ↔ ((p, q.1), q.2) ∈ x := by
    intro p q
    unfold group
    rw [List.mem_map]
    constructor
    · rintro ⟨r, hr, rfl⟩
      rw [List.mem_filter] at hr
      have h5 := of_decide_eq_true hr.2
      rw [← h5]
      exact hr.1
    · intro hq
      exact ⟨_, List.mem_filter.2 ⟨hq, by simp⟩, rfl⟩
  have hpm : ∀ p, p ∈ priv ↔ ∃ c col, ((p, c), col) ∈ x ∧ ∃ c' col', ((p, c'), col') ∈ x ∧ c' ∉ tc := by
    intro p
    rw [hpriv, List.mem_filter, hlev]
    simp only [Bool.not_eq_true', List.all_eq_false, decide_eq_true_eq]
    constructor
    · rintro ⟨⟨c, col, hc⟩, q, hq, hqt⟩
      exact ⟨c, col, hc, q.1, q.2, (hgrp p q).1 hq, hqt⟩
    · rintro ⟨c, col, hc, c', col', hq, hqt⟩
      exact ⟨⟨c, col, hc⟩, (c', col'), (hgrp p (c', col')).2 hq, hqt⟩
  have hshm : ∀ q ∈ sh, q.1 ∈ tc ∧ ∃ g, ((g, q.1), q.2) ∈ x ∧ g ∉ priv := by
    intro q hq
    rw [hsh, List.mem_flatMap] at hq
    obtain ⟨g, hg, hq⟩ := hq
    rw [(ho _).mem_iff, List.mem_filter] at hg
    have h5 : ∀ r ∈ group x g, r.1 ∈ tc := by
      have := hg.2
      rw [List.all_eq_true] at this
      exact fun r hr => of_decide_eq_true (this r hr)
    refine ⟨h5 q hq, g, (hgrp g q).1 hq, ?_⟩
    rw [hpm]
    rintro ⟨_, _, -, c', col', hc', hnt⟩
    exact hnt (h5 (c', col') ((hgrp g (c', col')).2 hc'))
  refine ⟨priv, hpm, ?_, ?_⟩
  · rw [hpriv]
    apply List.Nodup.filter
    unfold level0
    rw [List.nodup_reverse]
    exact List.nodup_dedup _
  · have hfin : ∀ (ps : List Str) (o : List Series), privates tc sh x ps = .ok o →
        List.Forall₂ (fun (p : Str) (s : Series) => s.name = p ∧ ∃ t col own shared, s.cols = own ++ shared ∧
        ((p, t), col) ∈ x ∧ t ∉ tc ∧ (∀ c col', ((p, c), col') ∈ x → c ∉ tc → (c, col') = (t, col)) ∧
        own = (group x p).map (fun q => if q.1 = t then (target, q.2) else q) ∧
        (∀ q ∈ shared, q.1 ∈ tc ∧ ∃ g, ((g, q.1), q.2) ∈ x ∧ g ∉ priv)) ps o := by
      intro ps
      induction ps with
      | nil => intro o ho'; simp only [privates, Except.ok.injEq] at ho'; subst ho'; exact .nil
      | cons p ps ih =>
        intro o ho'
        unfold privates at ho'
        cases h1 : privateSeries tc sh p (group x p) with
        | error e => rw [h1] at ho'; cases ho'
        | ok s =>
          rw [h1] at ho'
          cases h2 : privates tc sh x ps with
          | error e => rw [h2] at ho'; cases ho'
          | ok r =>
            rw [h2] at ho'
            injection ho' with ho'
            subst ho'
            refine .cons ?_ (ih r h2)
            unfold privateSeries at h1
            split at h1
            · rename_i t ht
              injection h1 with h1
              subst h1
              have htm : t ∈ (group x p).filter (fun q => q.1 ∉ tc) := by rw [ht]; exact List.mem_cons_self
              rw [List.mem_filter] at htm
              refine ⟨rfl, t.1, t.2, _, sh, rfl, (hgrp p t).1 htm.1, of_decide_eq_true htm.2, ?_, rfl, hshm⟩
              intro c col' hc hct
              have : (c, col') ∈ (group x p).filter (fun q => q.1 ∉ tc) := by
                rw [List.mem_filter]
                exact ⟨(hgrp p (c, col')).2 hc, by simpa using hct⟩
              rw [ht] at this
              simpa using this
            · cases h1
    exact hfin priv out h

/-! ### C82: no series influences another -/

theorem transform_dt {tr : Transformer} {aug : Bool} {F : Frame} {tr' : Transformer} {F' : Frame} {ms : List Meta}
    (h : transform tr aug F = .ok (tr', F', ms)) : F'.dt = F.dt := by
  unfold transform at h
  split at h
  · split at h
    · cases h
    · injection h with h
      simp only [Prod.mk.injEq] at h
      rw [← h.2.1]
  · cases h

theorem applyAll_sticky (trs trs' : List Transformer) (F G X : Frame) (hdt : F.dt = G.dt)
    (h : applyAll trs F = .ok (trs', X)) : applyAll trs' G = applyAll trs G := by
  induction trs generalizing trs' F G X with
  | nil => simp only [applyAll, Except.ok.injEq, Prod.mk.injEq] at h; rw [← h.1]
  | cons tr trs ih =>
    unfold applyAll at h
    cases h1 : transform tr true F with
    | error e => rw [h1] at h; cases h
    | ok r =>
      obtain ⟨tr1, F1, ms⟩ := r
      rw [h1] at h
      simp only at h
      cases h2 : applyAll trs F1 with
      | error e => rw [h2] at h; cases h
      | ok r2 =>
        obtain ⟨trs1, X1⟩ := r2
        rw [h2] at h
        simp only [Except.ok.injEq, Prod.mk.injEq] at h
        obtain ⟨rfl, rfl⟩ := h
        have hs := C79_same_grid_idempotent tr true F G hdt tr1 F1 ms h1
        have hF1 : F1.dt = F.dt := transform_dt h1
        unfold applyAll
        rw [hs]
        cases h3 : transform tr true G with
        | error e => rfl
        | ok r3 =>
          obtain ⟨tr2, G1, ms2⟩ := r3
          simp only
          rw [ih trs1 F1 G1 X1 (by rw [hF1, hdt, transform_dt h3]) h2]

theorem applyAll_dt {trs trs' : List Transformer} {F X : Frame} (h : applyAll trs F = .ok (trs', X)) : X.dt = F.dt := by
  induction trs generalizing trs' F X with
  | nil => simp only [applyAll, Except.ok.injEq, Prod.mk.injEq] at h; rw [← h.2]
  | cons tr trs ih =>
    unfold applyAll at h
    cases h1 : transform tr true F with
    | error e => rw [h1] at h; cases h
    | ok r =>
      obtain ⟨tr1, F1, ms⟩ := r
      rw [h1] at h
      simp only at h
      cases h2 : applyAll trs F1 with
      | error e => rw [h2] at h; cases h
      | ok r2 =>
        rw [h2] at h
        simp only [Except.ok.injEq, Prod.mk.injEq] at h
        rw [← h.2, ih h2, transform_dt h1]

theorem targetCols_sticky (trs trs' : List Transformer) (F G : Frame) (T : List (Str × Col)) (hdt : F.dt = G.dt)
    (h : targetCols trs F = .ok (trs', T)) : targetCols trs' G = targetCols trs G := by
  induction trs generalizing trs' T with
  | nil => simp only [targetCols, Except.ok.injEq, Prod.mk.injEq] at h; rw [← h.1]
  | cons tr trs ih =>
    unfold targetCols at h
    cases h1 : transform tr false F with
    | error e => rw [h1] at h; cases h
    | ok r =>
      obtain ⟨tr1, F1, ms⟩ := r
      rw [h1] at h
      simp only at h
      cases h2 : targetCols trs F with
      | error e => rw [h2] at h; cases h
      | ok r2 =>
        obtain ⟨trs1, X1⟩ := r2
        rw [h2] at h
        simp only [Except.ok.injEq, Prod.mk.injEq] at h
        obtain ⟨rfl, rfl⟩ := h
        unfold targetCols
        rw [C79_same_grid_idempotent tr false F G hdt tr1 F1 ms h1, ih trs1 X1 h2]

/-- A formatter that has transformed one frame treats every other frame of the same sampling time as it would have
before. -/
theorem transformX_sticky {I : Type} [DecidableEq I] (fm fm' : Formatter) (idx idx' : List I) (F G : Frame) (rt : Bool)
    (hdt : F.dt = G.dt) (x y : IFrame I) (h : transformX fm idx F rt = .ok (fm', x, y)) :
    transformX fm' idx' G rt = transformX fm idx' G rt := by
  unfold transformX at h
  cases h1 : applyAll fm.transformers F with
  | error e => rw [h1] at h; cases h
  | ok r =>
    obtain ⟨trs, X⟩ := r
    rw [h1] at h
    simp only at h
    have hs := applyAll_sticky fm.transformers trs F G X hdt h1
    cases rt with
    | false =>
      simp only [Bool.false_eq_true, if_false, Except.ok.injEq, Prod.mk.injEq] at h
      obtain ⟨rfl, -, -⟩ := h
      unfold transformX
      simp only [hs, Bool.false_eq_true, if_false]
    | true =>
      simp only [if_true] at h
      cases h2 : targetCols fm.targets X with
      | error e => rw [h2] at h; cases h
      | ok r2 =>
        obtain ⟨tts, T⟩ := r2
        rw [h2] at h
        simp only [Except.ok.injEq, Prod.mk.injEq] at h
        obtain ⟨rfl, -, -⟩ := h
        unfold transformX
        simp only [hs, if_true]
        cases h3 : applyAll fm.transformers G with
        | error e => rfl
        | ok r3 =>
          obtain ⟨trs3, X3⟩ := r3
          simp only
          rw [targetCols_sticky fm.targets tts X X3 T (by rw [applyAll_dt h1, applyAll_dt h3, hdt]) h2]

/-- C82: in global form the rows of each series are exactly those the formatter, as it was before the call, gives for
that series' own table alone: what the other series contain, and in which order they come, has no effect. -/
theorem C82_each_series_alone {I : Type} [DecidableEq I] (idx : List I) (dt : Nat) (rt : Bool) (fm fm' : Formatter)
    (ss : List Series) (out : List (Str × IFrame I × IFrame I)) (h : loop idx dt rt fm ss = .ok (fm', out)) :
    List.Forall₂ (fun (s : Series) (o : Str × IFrame I × IFrame I) => o.1 = s.name ∧
      ∃ fm1, transformX fm idx ⟨dt, s.cols⟩ rt = .ok (fm1, o.2.1, o.2.2)) ss out := by
  suffices H : ∀ fm0 : Formatter, (∀ s : Series, transformX fm0 idx ⟨dt, s.cols⟩ rt = transformX fm idx ⟨dt, s.cols⟩ rt) →
      List.Forall₂ (fun (s : Series) (o : Str × IFrame I × IFrame I) => o.1 = s.name ∧
        ∃ fm1, transformX fm0 idx ⟨dt, s.cols⟩ rt = .ok (fm1, o.2.1, o.2.2)) ss out from H fm (fun _ => rfl)
  intro fm0 h0
  induction ss generalizing fm out with
  | nil => simp only [loop, Except.ok.injEq, Prod.mk.injEq] at h; rw [← h.2]; exact .nil
  | cons s ss ih =>
    unfold loop at h
    cases h1 : transformX fm idx ⟨dt, s.cols⟩ rt with
    | error e => rw [h1] at h; cases h
    | ok r =>
      obtain ⟨fm1, x, y⟩ := r
      rw [h1] at h
      simp only at h
      cases h2 : loop idx dt rt fm1 ss with
      | error e => rw [h2] at h; cases h
      | ok r2 =>
        obtain ⟨fm2, o2⟩ := r2
        rw [h2] at h
        simp only [Except.ok.injEq, Prod.mk.injEq] at h
        obtain ⟨rfl, rfl⟩ := h
        refine .cons ⟨rfl, fm1, by rw [h0]; exact h1⟩ (ih fm1 o2 h2 ?_)
        intro s'
        rw [h0]
        exact (transformX_sticky fm fm1 idx idx ⟨dt, s.cols⟩ ⟨dt, s'.cols⟩ rt rfl x y h1).symm

/-- C82 (acceptance): the call fails exactly when some series alone fails. -/
theorem C82_accepts_iff {I : Type} [DecidableEq I] (idx : List I) (dt : Nat) (rt : Bool) (fm : Formatter) (ss : List Series) :
    (∃ r, loop idx dt rt fm ss = .ok r) ↔ ∀ s ∈ ss, ∃ r, transformX fm idx ⟨dt, s.cols⟩ rt = .ok r := by
  suffices H : ∀ fm0 : Formatter, (∀ s : Series, transformX fm0 idx ⟨dt, s.cols⟩ rt = transformX fm idx ⟨dt, s.cols⟩ rt) →
      ((∃ r, loop idx dt rt fm ss = .ok r) ↔ ∀ s ∈ ss, ∃ r, transformX fm0 idx ⟨dt, s.cols⟩ rt = .ok r) from
    H fm (fun _ => rfl)
  intro fm0 h0
  induction ss generalizing fm with
  | nil => simp [loop]
  | cons s ss ih =>
    rw [List.forall_mem_cons, h0]
    unfold loop
    cases h1 : transformX fm idx ⟨dt, s.cols⟩ rt with
    | error e => simp
    | ok r =>
      obtain ⟨fm1, x, y⟩ := r
      have h2 := ih fm1 (fun s' => by
        rw [h0]
        exact (transformX_sticky fm fm1 idx idx ⟨dt, s.cols⟩ ⟨dt, s'.cols⟩ rt rfl x y h1).symm)
      simp only [← h2]
      constructor
      · rintro ⟨r, hr⟩
        refine ⟨⟨_, rfl⟩, ?_⟩
        cases h3 : loop idx dt rt fm1 ss with
        | error e => rw [h3] at hr; cases hr
        | ok r => exact ⟨r, rfl⟩
      · rintro ⟨-, ⟨fm2, o⟩, hr⟩
        rw [hr]
        exact ⟨_, rfl⟩

/-! ### C83: correlation reordering -/

theorem postAll_train {N V : Type} (st : Option (List N)) (ss : List (PostIn N V)) (ht : ∀ s ∈ ss, s.yEmpty = false) :
    postAll st ss = .ok ((ss.getLast?.map PostIn.order).or st, ss.map (fun s => s.rows.map (fun r => s.order.map r))) := by
  induction ss generalizing st with
  | nil => cases st <;> rfl
  | cons s ss ih =>
    unfold postAll postprocess
    rw [if_neg (by rw [ht s (by simp)]; simp)]
    simp only
    rw [ih _ (fun t h => ht t (by simp [h]))]
    cases ss with
    | nil => rfl
    | cons t ts =>
      rw [List.getLast?_cons_cons, List.getLast?_eq_some_getLast (by simp)]
      rfl

theorem postAll_serve {N V : Type} (o : List N) (ss : List (PostIn N V)) (ht : ∀ s ∈ ss, s.yEmpty = true) :
    postAll (some o) ss = .ok (some o, ss.map (fun s => s.rows.map (fun r => o.map r))) := by
  induction ss with
  | nil => rfl
  | cons s ss ih =>
    unfold postAll postprocess
    rw [if_pos (ht s (by simp))]
    simp only
    rw [ih (fun t h => ht t (by simp [h]))]
    rfl

/-- C83: after training on the series `train` (at least one, targets not empty), serving any series permutes every row
with the order of the *last* training series, whichever series the row belongs to. -/
theorem C83_serving_uses_last_order {N V : Type} (st : Option (List N)) (train serve : List (PostIn N V)) (l : PostIn N V)
    (hl : train.getLast? = some l) (ht : ∀ s ∈ train, s.yEmpty = false) (hs : ∀ s ∈ serve, s.yEmpty = true) :
    ∃ st' outs, postAll st train = .ok (st', outs) ∧
      outs = train.map (fun s => s.rows.map (fun r => s.order.map r)) ∧
      postAll st' serve = .ok (st', serve.map (fun s => s.rows.map (fun r => l.order.map r))) := by
  refine ⟨some l.order, _, ?_, rfl, postAll_serve _ _ hs⟩
  rw [postAll_train st train ht, hl]
  rfl

/-- C83 (exact condition): a series gets, for every possible row, the same features when served as when trained on,
exactly when its own order is that of the last training series. -/
theorem C83_same_features_iff {N V : Type} [DecidableEq N] [Nontrivial V] (st : Option (List N)) (train : List (PostIn N V))
    (s l : PostIn N V) (hm : s ∈ train) (hl : train.getLast? = some l) (ht : ∀ s ∈ train, s.yEmpty = false)
    (names : List N) (hp : ∀ s ∈ train, s.order.Perm names) :
    (∀ row : N → V, ∀ st' outs out1 out2 st1, postAll st train = .ok (st', outs) →
      postprocess none { s with rows := [row] } = .ok (st1, out1) →
      postprocess st' { yEmpty := true, order := [], rows := [row] } = .ok (st', out2) → out1 = out2) ↔ s.order = l.order := by
  have hst : postAll st train = .ok (some l.order, train.map (fun s => s.rows.map (fun r => s.order.map r))) := by
    rw [postAll_train st train ht, hl]; rfl
  have hse : s.yEmpty = false := ht s hm
  constructor
  · intro h
    have key : ∀ row : N → V, s.order.map row = l.order.map row := by
      intro row
      have := h row _ _ [s.order.map row] [l.order.map row] (some s.order) hst (by simp [postprocess, hse]) (by simp [postprocess])
      simpa using this
    obtain ⟨a, b, hab⟩ := exists_pair_ne V
    have hlen : s.order.length = l.order.length := by
      rw [(hp s hm).length_eq, (hp l (List.mem_of_getLast? hl)).length_eq]
    apply List.ext_getElem hlen
    intro i h1 h2
    have := congrArg (fun l => l[i]?) (key (fun n => if n = s.order[i] then a else b))
    simp only [List.getElem?_map, List.getElem?_eq_getElem h1, List.getElem?_eq_getElem h2, Option.map_some, if_true,
      Option.some.injEq] at this
    by_contra hc
    rw [if_neg (fun e => hc e.symm)] at this
    exact hab this
  · intro h row st' outs out1 out2 st1 h1 h2 h3
    rw [hst] at h1
    simp only [Except.ok.injEq, Prod.mk.injEq] at h1
    obtain ⟨rfl, -⟩ := h1
    simp only [postprocess, hse, Bool.false_eq_true, if_false, Except.ok.injEq, Prod.mk.injEq] at h2
    simp only [postprocess, if_true, Except.ok.injEq, Prod.mk.injEq, true_and] at h3
    rw [← h2.2, ← h3, h]

/-- C83 (refused): serving before any training series had a target raises `KeyError`. -/
theorem C83_serving_first_refused {N V : Type} (s : PostIn N V) (ss : List (PostIn N V)) (h : s.yEmpty = true) :
    postAll none (s :: ss) = .error .keyError := by
  unfold postAll postprocess
  rw [if_pos h]

/-! ### Examples -/

private def s (x : String) : Str := x.toList

/-- Two load series and a temperature that is transformed. -/
def exTable : List (Str × Col) :=
  [(s "load_a", [some 1, some 2, some 3]), (s "t", [some 10, some 20, some 30]), (s "load_b", [some 4, some 5, some 6])]

example : ∃ out, preprocess id [[target]] [[s "t"], [target]] exTable = .ok out ∧
    out = [⟨s "load_a", [(target, [some 1, some 2, some 3]), (s "t", [some 10, some 20, some 30])]⟩,
           ⟨s "load_b", [(target, [some 4, some 5, some 6]), (s "t", [some 10, some 20, some 30])]⟩] := by
  refine ⟨_, rfl, ?_⟩; decide +kernel

example : ∃ p ∈ exTable, Private [[s "t"], [target]] p.1 := ⟨_, List.mem_cons_self, Or.inr (by decide +kernel)⟩
example : preprocess id [[target], [s "t"]] [[s "t"]] exTable = .error .valueError := rfl
example : preprocess id [[target]] [[s "wind"]] exTable = .error .keyError := rfl

example : ∃ out, multi id [s "t", s "w"] [((s "A", s "load"), [some 1]), ((s "A", s "t"), [some 2]), ((s "B", s "pv"), [some 3]),
      ((s "m", s "w"), [some 4])] = .ok out ∧
    out = [⟨s "A", [(target, [some 1]), (s "t", [some 2]), (s "w", [some 4])]⟩,
           ⟨s "B", [(target, [some 3]), (s "w", [some 4])]⟩] := by
  refine ⟨_, rfl, ?_⟩; decide +kernel
/-- Two untransformed columns in one group are refused. -/
example : multi id [s "t"] [((s "A", s "load"), [some 1]), ((s "A", s "pv"), [some 2])] = .error .assertionError := rfl

/-- Lag features of two series: three rows each, every series on its own. -/
def exFm : Formatter :=
  { transformers := [{ names := [target], functions := [], agg := .unset, lags := some [1], relative := true, dtArg := none }],
    targets := [{ names := [target], functions := [], agg := .unset, lags := some [-1], relative := true, dtArg := none }],
    augment := false }

example : ∃ fm' out, loop [0, 1, 2] 900000000000 true exFm
      [⟨s "a", [(target, [some 1, some 2, some 3])]⟩, ⟨s "b", [(target, [some 4, some 5, some 6])]⟩] = .ok (fm', out) ∧
    out.map (fun o => o.1) = [s "a", s "b"] ∧ out.map (fun o => o.2.1.index) = [[1], [1]] ∧
    out.map (fun o => o.2.1.cols.map Prod.snd) = [[[some 1]], [[some 4]]] ∧
    out.map (fun o => o.2.2.cols.map Prod.snd) = [[[some 3]], [[some 6]]] :=
  ⟨_, _, rfl, by decide +kernel, by decide +kernel, by decide +kernel, by decide +kernel⟩

/-- Two training series with opposite orders: the first one is served with its features swapped. -/
example : ∃ st outs out, postAll none [⟨false, ["l1", "l2"], [fun n => n.length]⟩, ⟨false, ["l2", "l1"], []⟩] = .ok (st, outs) ∧
    postprocess st ⟨true, [], [fun n => if n = "l1" then 1 else 2]⟩ = .ok (st, out) ∧ out = [[2, 1]] ∧
    postprocess (V := Nat) none ⟨false, ["l1", "l2"], [fun n => if n = "l1" then 1 else 2]⟩ = .ok (some ["l1", "l2"], [[1, 2]]) :=
  ⟨_, _, _, rfl, rfl, by decide +kernel, congrArg Except.ok (by decide +kernel)⟩

end PyF.GlobalForm

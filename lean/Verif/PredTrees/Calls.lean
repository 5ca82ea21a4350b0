import Verif.PredTrees.Props
import Mathlib.Tactic.Linarith
import Mathlib.Tactic.Positivity

/-! Properties C217 and C218: the numbers of nodes with online reduction, workers, and later calls. -/

namespace PyF.PredTrees
open PyF ScenGen Scenred Spec

variable {T S : Type}

theorem effectiveNodes_used (n : ℕ) (ns eff after : List ℕ) (h : TreeBuild.effectiveNodes n ns = .ok (eff, after)) :
    eff = used n ns ∧ after = (if ns.length + 1 = n then ns else 1 :: ns.tail) := by
  unfold TreeBuild.effectiveNodes at h
  unfold used
  by_cases hl : ns.length + 1 = n
  · rw [if_pos (by omega)] at h
    simp only [Except.ok.injEq, Prod.mk.injEq] at h
    rw [if_pos hl, if_pos hl]
    exact ⟨h.1.symm, h.2.symm⟩
  · rw [if_neg (by omega)] at h
    rw [if_neg hl, if_neg hl]
    match ns, h with
    | [], h => simp at h
    | a :: rest, h =>
      simp only [Except.ok.injEq, Prod.mk.injEq] at h
      exact ⟨h.1.symm, h.2.symm⟩

/-- One call with numbers of nodes passed. -/
theorem genTree_some (dflt : Except PyErr (List ℕ)) (body : ℚ → List ℕ → S → Except PyErr T) (n : ℕ) (o o' : Obj) (ns : List ℕ) (ns' : Option (List ℕ)) (sc : S) (t : T)
    (h : genTree dflt body n o (some ns) sc = .ok (t, o', ns')) :
    body (o.rate.getD (freshRate n)) (used n ns) sc = .ok t ∧ o' = { o with rate := some (o.rate.getD (freshRate n)) } ∧
      ns' = some (if ns.length + 1 = n then ns else 1 :: ns.tail) := by
  unfold genTree at h
  simp only at h
  cases he : TreeBuild.effectiveNodes n ns with
  | error e => rw [he] at h; simp at h
  | ok r =>
    obtain ⟨eff, after⟩ := r
    obtain ⟨h1, h2⟩ := effectiveNodes_used n ns eff after he
    rw [he] at h
    simp only at h
    cases hb : body (o.rate.getD (max (1 / (n : ℚ)) (1 / 10))) eff sc with
    | error e => rw [hb] at h; simp at h
    | ok t0 =>
      rw [hb] at h
      simp only [Except.ok.injEq, Prod.mk.injEq] at h
      obtain ⟨rfl, rfl, rfl⟩ := h
      subst h1 h2
      exact ⟨hb, rfl, rfl⟩

/-- The rate after a call. -/
theorem genTree_rate (dflt : Except PyErr (List ℕ)) (body : ℚ → List ℕ → S → Except PyErr T) (n : ℕ) (o o' : Obj) (ns ns' : Option (List ℕ)) (sc : S) (t : T)
    (h : genTree dflt body n o ns sc = .ok (t, o', ns')) : o'.rate = some (o.rate.getD (freshRate n)) := by
  cases ns with
  | some l => rw [(genTree_some dflt body n o o' l ns' sc t h).2.1]
  | none =>
    unfold genTree at h
    simp only at h
    split at h
    · simp at h
    · split at h
      · simp at h
      · split at h
        · simp at h
        · simp only [Except.ok.injEq, Prod.mk.injEq] at h
          rw [← h.2.1]
          rfl

theorem used_again (n : ℕ) (ns : List ℕ) : used n (if ns.length + 1 = n then ns else 1 :: ns.tail) = used n ns ∨ ns = [] := by
  by_cases h : ns.length + 1 = n
  · rw [if_pos h]; exact .inl rfl
  · rw [if_neg h]
    cases ns with
    | nil => exact .inr rfl
    | cons a l =>
      left
      unfold used
      rw [if_neg (by simpa using h), if_neg h]
      rfl

/-- The sequential loop with numbers of nodes passed: every tree is built with the same numbers and the same rate. -/
theorem seqTrees_some (dflt : Except PyErr (List ℕ)) (body : ℚ → List ℕ → S → Except PyErr T) (n : ℕ) (scs : List S) : ∀ (o o' : Obj) (ns : List ℕ) (ns' : Option (List ℕ)) (ts : List T),
    seqTrees (genTree dflt body n) o (some ns) scs = .ok (ts, o', ns') →
      (∀ (i : ℕ) (sc : S), scs[i]? = some sc → ∃ t, ts[i]? = some t ∧ body (o.rate.getD (freshRate n)) (used n ns) sc = .ok t) ∧
      ns' = some (if scs = [] ∨ ns.length + 1 = n then ns else 1 :: ns.tail) := by
  induction scs with
  | nil =>
    intro o o' ns ns' ts h
    simp only [seqTrees, Except.ok.injEq, Prod.mk.injEq] at h
    refine ⟨by simp, ?_⟩
    rw [if_pos (.inl rfl), ← h.2.2]
  | cons sc scs ih =>
    intro o o' ns ns' ts h
    unfold seqTrees at h
    cases hg : genTree dflt body n o (some ns) sc with
    | error e => rw [hg] at h; simp at h
    | ok r =>
      obtain ⟨t, o1, n1⟩ := r
      obtain ⟨g1, g2, g3⟩ := genTree_some dflt body n o o1 ns n1 sc t hg
      rw [hg] at h
      simp only at h
      cases hs : seqTrees (genTree dflt body n) o1 n1 scs with
      | error e => rw [hs] at h; simp at h
      | ok r =>
        obtain ⟨ts1, o2, n2⟩ := r
        rw [hs] at h
        simp only [Except.ok.injEq, Prod.mk.injEq] at h
        obtain ⟨rfl, rfl, rfl⟩ := h
        rw [g3] at hs
        obtain ⟨i1, i2⟩ := ih o1 o2 _ n2 ts1 hs
        have hne : ns ≠ [] ∨ ns.length + 1 = n := by
          by_contra hcon
          push Not at hcon
          obtain ⟨h1, h2⟩ := hcon
          subst h1
          unfold genTree TreeBuild.effectiveNodes at hg
          simp only at hg
          rw [if_neg (by simp only [List.length_nil] at h2 ⊢; omega)] at hg
          simp at hg
        have hused : used n (if ns.length + 1 = n then ns else 1 :: ns.tail) = used n ns := by
          rcases used_again n ns with h | h
          · exact h
          · rcases hne with h' | h'
            · exact absurd h h'
            · rw [if_pos h']
        refine ⟨?_, ?_⟩
        · intro i sc' hi
          cases i with
          | zero =>
            simp only [List.getElem?_cons_zero, Option.some.injEq] at hi ⊢
            subst hi
            exact ⟨t, rfl, g1⟩
          | succ i =>
            simp only [List.getElem?_cons_succ] at hi ⊢
            obtain ⟨t', e1, e2⟩ := i1 i sc' hi
            refine ⟨t', e1, ?_⟩
            rw [hused, g2] at e2
            simpa using e2
        · rw [i2]
          congr 1
          by_cases hl : ns.length + 1 = n
          · rw [if_pos hl, if_pos (.inr hl), if_pos (.inr hl)]
          · have hc : ¬ (sc :: scs = [] ∨ ns.length + 1 = n) := by
              rintro (h | h)
              · exact absurd h (by simp)
              · exact hl h
            rw [if_neg hl, if_neg hc]
            split
            · rfl
            · rfl

theorem parTrees_get (gen : Obj → Option (List ℕ) → S → Except PyErr (T × Obj × Option (List ℕ))) (o : Obj) (ns : Option (List ℕ)) (scs : List S) : ∀ ts : List T,
    parTrees gen o ns scs = .ok ts → ∀ (i : ℕ) (sc : S), scs[i]? = some sc → ∃ t o' ns', ts[i]? = some t ∧ gen o ns sc = .ok (t, o', ns') := by
  induction scs with
  | nil => intro ts _ i sc hi; simp at hi
  | cons sc0 scs ih =>
    intro ts h i sc hi
    unfold parTrees at h
    cases hg : gen o ns sc0 with
    | error e => rw [hg] at h; simp at h
    | ok r =>
      obtain ⟨t, o1, n1⟩ := r
      rw [hg] at h
      simp only at h
      cases hp : parTrees gen o ns scs with
      | error e => rw [hp] at h; simp at h
      | ok ts' =>
        rw [hp] at h
        simp only [Except.ok.injEq] at h
        subst h
        cases i with
        | zero =>
          simp only [List.getElem?_cons_zero, Option.some.injEq] at hi ⊢
          subst hi
          exact ⟨t, o1, n1, rfl, hg⟩
        | succ i =>
          simp only [List.getElem?_cons_succ] at hi ⊢
          exact ih ts' hp i sc hi

/-- **C217 (online).** With online reduction all trees are built with the same numbers of nodes. With an additional node these are a 1
followed by the given numbers (unless there happen to be as many of them, with the 1, as scenarios less one, when there are two 1s), and
the caller's numbers are left alone. Without it the first number given is replaced by 1 (or, if their number is that of the scenarios
less one, preceded by a 1); if the trees are not built by several workers, the replacement is made in the caller's own array. -/
theorem C217_online (cpu : ℕ) (additional parallel : Bool) (dflt : Except PyErr (List ℕ)) (body : ℚ → List ℕ → S → Except PyErr T) (n : ℕ) (o o' : Obj) (ns : List ℕ)
    (ns' : Option (List ℕ)) (scs : List S) (hne : scs ≠ []) (ts : List T) (h : onlineTrees cpu additional parallel (genTree dflt body n) o (some ns) scs = .ok (ts, o', ns')) :
    (additional = true → ns' = some ns ∧ ∀ (i : ℕ) (sc : S), scs[i]? = some sc → ∃ t, ts[i]? = some t ∧
      body (o.rate.getD (freshRate n)) (if ns.length + 2 = n then 1 :: 1 :: ns else 1 :: ns) sc = .ok t) ∧
    (additional = false → ns' = some (if (parallel = true ∧ 1 < scs.length) ∨ ns.length + 1 = n then ns else 1 :: ns.tail) ∧
      ∀ (i : ℕ) (sc : S), scs[i]? = some sc → ∃ t, ts[i]? = some t ∧ body (o.rate.getD (freshRate n)) (if ns.length + 1 = n then 1 :: ns else 1 :: ns.tail) sc = .ok t) := by
  have hused1 : used n (1 :: ns) = if ns.length + 2 = n then 1 :: 1 :: ns else 1 :: ns := by
    unfold used
    simp only [List.length_cons, List.tail_cons]
  unfold onlineTrees at h
  simp only at h
  by_cases hp : parallel = true ∧ 1 < scs.length
  · rw [if_pos (by simp [hp])] at h
    split at h
    · simp at h
    · cases hpt : parTrees (genTree dflt body n) o (if additional then (some ns).map (fun l => 1 :: l) else some ns) scs with
      | error e => rw [hpt] at h; simp at h
      | ok ts' =>
        rw [hpt] at h
        simp only [Except.ok.injEq, Prod.mk.injEq] at h
        obtain ⟨rfl, rfl, rfl⟩ := h
        constructor
        · intro ha
          refine ⟨rfl, ?_⟩
          intro i sc hi
          rw [ha] at hpt
          simp only [if_true, Option.map_some] at hpt
          obtain ⟨t, o1, n1, e1, e2⟩ := parTrees_get _ _ _ _ _ hpt i sc hi
          exact ⟨t, e1, by rw [← hused1]; exact (genTree_some _ _ _ _ _ _ _ _ _ e2).1⟩
        · intro ha
          refine ⟨by rw [if_pos (.inl hp)], ?_⟩
          intro i sc hi
          rw [ha] at hpt
          simp only [Bool.false_eq_true, if_false] at hpt
          obtain ⟨t, o1, n1, e1, e2⟩ := parTrees_get _ _ _ _ _ hpt i sc hi
          exact ⟨t, e1, (genTree_some _ _ _ _ _ _ _ _ _ e2).1⟩
  · rw [if_neg (by simpa using hp)] at h
    cases hst : seqTrees (genTree dflt body n) o (if additional then (some ns).map (fun l => 1 :: l) else some ns) scs with
    | error e => rw [hst] at h; simp at h
    | ok r =>
      obtain ⟨ts', o1, n1⟩ := r
      rw [hst] at h
      simp only [Except.ok.injEq, Prod.mk.injEq] at h
      obtain ⟨rfl, rfl, hns⟩ := h
      constructor
      · intro ha
        rw [ha] at hst hns
        simp only [if_true, Option.map_some] at hst hns
        refine ⟨hns.symm, ?_⟩
        rw [← hused1]
        exact (seqTrees_some _ _ _ _ _ _ _ _ _ hst).1
      · intro ha
        rw [ha] at hst hns
        simp only [Bool.false_eq_true, if_false] at hst hns
        obtain ⟨s1, s2⟩ := seqTrees_some _ _ _ _ _ _ _ _ _ hst
        refine ⟨?_, s1⟩
        rw [← hns, s2]
        congr 1
        by_cases hl : ns.length + 1 = n
        · rw [if_pos (.inr hl), if_pos (.inr hl)]
        · rw [if_neg (by simp [hne, hl]), if_neg (by rintro (h | h); exacts [hp h, hl h])]

/-- **C218 (workers).** On a machine with at least two processors, building the trees by several workers gives the same trees as building
them one after the other, and fails in the same way. With one processor, and two or more rows, it fails. -/
theorem C218_workers (cpu : ℕ) (additional : Bool) (dflt : Except PyErr (List ℕ)) (body : ℚ → List ℕ → S → Except PyErr T) (n : ℕ) (o : Obj) (nodes : Option (List ℕ)) (scs : List S) :
    (2 ≤ cpu → (∀ ts o' ns', onlineTrees cpu additional false (genTree dflt body n) o nodes scs = .ok (ts, o', ns') →
        ∃ o'' ns'', onlineTrees cpu additional true (genTree dflt body n) o nodes scs = .ok (ts, o'', ns'')) ∧
      ∀ e, onlineTrees cpu additional false (genTree dflt body n) o nodes scs = .error e → onlineTrees cpu additional true (genTree dflt body n) o nodes scs = .error e) ∧
    (cpu ≤ 1 → 2 ≤ scs.length → onlineTrees cpu additional true (genTree dflt body n) o nodes scs = .error .valueError) := by
  constructor
  · intro hcpu
    have hsp := seqTrees_eq_par (genTree dflt body n) (fun o o' ns ns' sc sc' t => genTree_stable dflt body n o o' ns ns' sc sc' t) scs o
      (if additional then nodes.map (fun l => 1 :: l) else nodes)
    unfold onlineTrees
    simp only [Bool.false_and, Bool.false_eq_true, if_false, Bool.true_and, decide_eq_true_eq]
    rw [← hsp]
    cases seqTrees (genTree dflt body n) o (if additional then nodes.map (fun l => 1 :: l) else nodes) scs with
    | error e =>
      constructor
      · intro ts o' ns' h; simp at h
      · intro e' h
        simp only [Except.error.injEq] at h
        subst h
        rw [if_neg (show ¬ cpu ≤ 1 by omega)]
        split <;> rfl
    | ok r =>
      constructor
      · intro ts o' ns' h
        simp only [Except.ok.injEq, Prod.mk.injEq] at h
        rw [← h.1, if_neg (show ¬ cpu ≤ 1 by omega)]
        split
        · exact ⟨_, _, rfl⟩
        · exact ⟨_, _, rfl⟩
      · intro e h; simp at h
  · intro h1 h2
    unfold onlineTrees
    simp only [Bool.true_and, decide_eq_true_eq]
    rw [if_pos (by omega), if_pos h1]

theorem seqTrees_rate (dflt : Except PyErr (List ℕ)) (body : ℚ → List ℕ → S → Except PyErr T) (n : ℕ) (scs : List S) : ∀ (o o' : Obj) (ns ns' : Option (List ℕ)) (ts : List T),
    seqTrees (genTree dflt body n) o ns scs = .ok (ts, o', ns') → o'.rate = if scs = [] then o.rate else some (o.rate.getD (freshRate n)) := by
  induction scs with
  | nil =>
    intro o o' ns ns' ts h
    simp only [seqTrees, Except.ok.injEq, Prod.mk.injEq] at h
    rw [if_pos rfl, h.2.1]
  | cons sc scs ih =>
    intro o o' ns ns' ts h
    unfold seqTrees at h
    cases hg : genTree dflt body n o ns sc with
    | error e => rw [hg] at h; simp at h
    | ok r =>
      obtain ⟨t, o1, n1⟩ := r
      rw [hg] at h
      simp only at h
      cases hs : seqTrees (genTree dflt body n) o1 n1 scs with
      | error e => rw [hs] at h; simp at h
      | ok r =>
        obtain ⟨ts1, o2, n2⟩ := r
        rw [hs] at h
        simp only [Except.ok.injEq, Prod.mk.injEq] at h
        obtain ⟨rfl, rfl, rfl⟩ := h
        have h1 := genTree_rate dflt body n o o1 ns n1 sc t hg
        rw [ih o1 o2 n1 n2 ts1 hs, h1, if_neg (show ¬ (sc :: scs = []) by simp)]
        split <;> rfl

/-- The rates of two numbers of scenarios agree exactly if the numbers do or both are ten or more. -/
theorem freshRate_eq_iff (n m : ℕ) (hn : 1 ≤ n) (hm : 1 ≤ m) : freshRate n = freshRate m ↔ n = m ∨ (10 ≤ n ∧ 10 ≤ m) := by
  have key : ∀ a : ℕ, 1 ≤ a → (10 ≤ a → freshRate a = 1 / 10) ∧ (a < 10 → freshRate a = 1 / (a : ℚ) ∧ (1 : ℚ) / 10 < freshRate a) := by
    intro a ha
    have ha' : (0 : ℚ) < a := by exact_mod_cast ha
    constructor
    · intro h
      have h' : (10 : ℚ) ≤ a := by exact_mod_cast h
      exact max_eq_right (one_div_le_one_div_of_le (by norm_num) h')
    · intro h
      have h' : (a : ℚ) < 10 := by exact_mod_cast h
      have h2 : (1 : ℚ) / 10 < 1 / (a : ℚ) := one_div_lt_one_div_of_lt ha' h'
      have h3 : freshRate a = 1 / (a : ℚ) := max_eq_left h2.le
      exact ⟨h3, by rw [h3]; exact h2⟩
  constructor
  · intro h
    rcases Nat.lt_or_ge n 10 with h1 | h1 <;> rcases Nat.lt_or_ge m 10 with h2 | h2
    · left
      rw [((key n hn).2 h1).1, ((key m hm).2 h2).1] at h
      have := inv_injective (by simpa only [one_div] using h : (n : ℚ)⁻¹ = (m : ℚ)⁻¹)
      exact_mod_cast this
    · have := ((key n hn).2 h1).2
      rw [h, (key m hm).1 h2] at this
      exact absurd this (lt_irrefl _)
    · have := ((key m hm).2 h2).2
      rw [← h, (key n hn).1 h1] at this
      exact absurd this (lt_irrefl _)
    · exact .inr ⟨h1, h2⟩
  · rintro (h | ⟨h1, h2⟩)
    · rw [h]
    · rw [(key n hn).1 h1, (key m hm).1 h2]

/-- **C218 (later calls).** A builder without a learning rate keeps the one of its first call if trees are built one after the other: a
later call on `m` scenarios uses the rate for the `n` scenarios of the first. If the first call used several workers, the object is as
before and the later call uses the rate for `m`. The two rates agree exactly if `n = m` or both are ten or more. -/
theorem C218_later_calls (cpu : ℕ) (additional : Bool) (dflt : Except PyErr (List ℕ)) (body : ℚ → List ℕ → S → Except PyErr T) (n m : ℕ) (hn : 1 ≤ n) (hm : 1 ≤ m) (o : Obj)
    (hfresh : o.rate = none) (ns : Option (List ℕ)) (ms : List ℕ) (first second : List S) (h2 : 2 ≤ first.length) (hs : second ≠ []) (ts : List T) (o' : Obj) (ns' : Option (List ℕ)) (us : List T)
    (o'' : Obj) (ms' : Option (List ℕ)) (later : Bool) :
    (onlineTrees cpu additional false (genTree dflt body n) o ns first = .ok (ts, o', ns') → onlineTrees cpu additional later (genTree dflt body m) o' (some ms) second = .ok (us, o'', ms') →
      ∀ (i : ℕ) (sc : S), second[i]? = some sc → ∃ t nodes, us[i]? = some t ∧ body (freshRate n) nodes sc = .ok t) ∧
    (onlineTrees cpu additional true (genTree dflt body n) o ns first = .ok (ts, o', ns') → o' = o ∧ ns' = ns ∧
      (onlineTrees cpu additional later (genTree dflt body m) o' (some ms) second = .ok (us, o'', ms') →
        ∀ (i : ℕ) (sc : S), second[i]? = some sc → ∃ t nodes, us[i]? = some t ∧ body (freshRate m) nodes sc = .ok t)) ∧
    (freshRate n = freshRate m ↔ n = m ∨ (10 ≤ n ∧ 10 ≤ m)) := by
  have build : ∀ r, o'.rate.getD (freshRate m) = r → onlineTrees cpu additional later (genTree dflt body m) o' (some ms) second = .ok (us, o'', ms') →
      ∀ (i : ℕ) (sc : S), second[i]? = some sc → ∃ t nodes, us[i]? = some t ∧ body r nodes sc = .ok t := by
    intro r hr h i sc hi
    obtain ⟨c1, c2⟩ := C217_online cpu additional later dflt body m o' o'' ms ms' second hs us h
    cases ha : additional with
    | true =>
      obtain ⟨t, e1, e2⟩ := (c1 ha).2 i sc hi
      exact ⟨t, _, e1, hr ▸ e2⟩
    | false =>
      obtain ⟨t, e1, e2⟩ := (c2 ha).2 i sc hi
      exact ⟨t, _, e1, hr ▸ e2⟩
  refine ⟨?_, ?_, freshRate_eq_iff n m hn hm⟩
  · intro h
    apply build
    unfold onlineTrees at h
    simp only [Bool.false_and, Bool.false_eq_true, if_false] at h
    cases hst : seqTrees (genTree dflt body n) o (if additional then ns.map (fun l => 1 :: l) else ns) first with
    | error e => rw [hst] at h; simp at h
    | ok r =>
      obtain ⟨ts', o1, n1⟩ := r
      rw [hst] at h
      simp only [Except.ok.injEq, Prod.mk.injEq] at h
      rw [← h.2.1, seqTrees_rate _ _ _ _ _ _ _ _ _ hst, if_neg (by intro h; rw [h] at h2; simp at h2), hfresh]
      rfl
  · intro h
    unfold onlineTrees at h
    simp only [Bool.true_and, decide_eq_true_eq] at h
    rw [if_pos (by omega)] at h
    split at h
    · simp at h
    · split at h
      · simp at h
      · simp only [Except.ok.injEq, Prod.mk.injEq] at h
        refine ⟨h.2.1.symm, h.2.2.symm, ?_⟩
        apply build
        rw [← h.2.1, hfresh]
        rfl

end PyF.PredTrees

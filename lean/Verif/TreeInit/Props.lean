import Verif.TreeInit.Lemmas
import Verif.TreeBuild.Props

/-! Properties C212, C213. -/

namespace PyF.TreeInit
open PyF TreeBuild

theorem isChain_map (r : ℕ → ℕ) (k T : ℕ) (h : ∀ i j, i ≤ j → j < k + T → r i ≤ r j) :
    List.IsChain (· ∣ ·) ((List.range' k T).map (fun i => 2 ^ (r i + 2))) := by
  induction T generalizing k with
  | zero => simp
  | succ T ih =>
    cases T with
    | zero => simp
    | succ T =>
      rw [List.range'_succ, List.map_cons]
      have ih' := ih (k + 1) (fun i j hij hj => h i j hij (by omega))
      rw [List.range'_succ, List.map_cons] at ih' ⊢
      refine List.IsChain.cons_cons ?_ ih'
      exact Nat.pow_dvd_pow 2 (by have := h k (k + 1) (by omega) (by omega); omega)

theorem good (n : ℕ) (hn : 8 ≤ n) (r : ℕ → ℕ) (k T : ℕ) (h : ∀ i j, i ≤ j → j < k + T → r i ≤ r j) (hr : ∀ i, r i ≤ Nat.log 2 n - 3) :
    Spec.GoodNodes n ((List.range' k T).map (fun i => 2 ^ (r i + 2))) := by
  have hl : 3 ≤ Nat.log 2 n := Nat.le_log_of_pow_le (by norm_num) hn
  constructor
  · cases T with
    | zero => simp
    | succ T =>
      have := isChain_map r k (T + 1) h
      rw [List.range'_succ, List.map_cons] at this ⊢
      exact List.IsChain.cons_cons (one_dvd _) this
  · intro x hx
    obtain ⟨i, -, rfl⟩ := List.mem_map.1 hx
    refine ⟨⟨_, rfl⟩, ?_, ?_⟩
    · calc 4 = 2 ^ 2 := rfl
        _ ≤ 2 ^ (r i + 2) := Nat.pow_le_pow_right (by norm_num) (by omega)
    · calc 2 * 2 ^ (r i + 2) = 2 ^ (r i + 3) := by ring
        _ ≤ 2 ^ Nat.log 2 n := Nat.pow_le_pow_right (by norm_num) (by have := hr i; omega)
        _ ≤ n := Nat.pow_log_le_self 2 (by omega)

/-- **C212.** The default numbers of nodes, for eight scenarios or more: one per time step, the first 1, the others powers of
two from 4 on, each a multiple of the one before, at most half the number of scenarios, and for two steps or more the last is
the largest such power; whatever the rounding of the progression. With them the quantile tree is built. The exception is a
number of scenarios one above the number of steps: then there is one level too many. -/
theorem C212_default_nodes (prog : Prog) (hp : Spec.Rounded prog) (n T : ℕ) (hn : 8 ≤ n) (hT : 1 ≤ T) :
    ∃ ns, initNodes prog n T none none = .ok (1 :: ns) ∧ Spec.GoodNodes n ns ∧ (∃ N, genTree (1 :: ns) = .ok N) ∧
      (T + 1 ≠ n → ns.length + 1 = T) ∧ (T + 1 = n → ns.length = T) ∧ (2 ≤ T → ns.getLast? = some (2 ^ (Nat.log 2 n - 1))) := by
  have hl : 3 ≤ Nat.log 2 n := Nat.le_log_of_pow_le (by norm_num) hn
  obtain ⟨r, hg, hmono, hbd, hlast⟩ := geometric_ok prog hp n T hl hT
  have built : ∀ k m, (∀ i j, i ≤ j → j < k + m → r i ≤ r j) → ∃ N, genTree (1 :: (List.range' k m).map (fun i => 2 ^ (r i + 2))) = .ok N := by
    intro k m h
    refine ((C52_built_iff_divisible _ ?_).1).2 (good n hn r k m h hbd).1
    intro x hx
    have := ((good n hn r k m h hbd).2 x hx).2.1
    omega
  by_cases hc : T + 1 = n
  · refine ⟨(List.range' 0 T).map (fun i => 2 ^ (r i + 2)), ?_, good n hn r 0 T (by simpa using hmono) hbd, built 0 T (by simpa using hmono),
      fun h => absurd hc h, fun _ => by simp, ?_⟩
    · unfold initNodes chosen
      simp only [hg, Option.getD_none]
      unfold effectiveNodes
      rw [if_pos (by simp; omega)]
      simp [List.range_eq_range']
    · intro h2
      rw [List.getLast?_map, ← List.range_eq_range', List.getLast?_range, if_neg (by omega)]
      simp only [Option.map_some]
      rw [hlast h2]
      congr 2
      omega
  · refine ⟨(List.range' 1 (T - 1)).map (fun i => 2 ^ (r i + 2)), ?_, good n hn r 1 (T - 1) (fun i j hij hj => hmono i j hij (by omega)) hbd,
      built 1 (T - 1) (fun i j hij hj => hmono i j hij (by omega)), fun _ => by simp; omega, fun h => absurd h hc, ?_⟩
    · unfold initNodes chosen
      simp only [hg, Option.getD_none]
      unfold effectiveNodes
      rw [if_neg (by simp; omega)]
      obtain ⟨T', rfl⟩ : ∃ T', T = T' + 1 := ⟨T - 1, by omega⟩
      rw [List.range_eq_range', List.range'_succ]
      simp
    · intro h2
      rw [List.getLast?_map, List.getLast?_range', if_neg (by omega)]
      simp only [Option.map_some]
      rw [show 1 + (T - 1) - 1 = T - 1 by omega, hlast h2]
      congr 2
      omega

/-- **C212.** The exact progression is one of those. -/
theorem C212_exact : Spec.Rounded exactProg := exact_rounded

theorem geometric_few (prog : Prog) (n T : ℕ) (hn : n < 8) (hT : 1 ≤ T) : geometricNodes prog n T = .error .indexError := by
  have hl : Nat.log 2 n ≤ 2 := by
    by_contra h
    have h0 : n ≠ 0 := by
      rintro rfl
      simp at h
    have := (Nat.le_log_iff_pow_le (b := 2) (x := 3) (by norm_num) h0).1 (by omega)
    omega
  unfold geometricNodes
  have hlen : (reversed ((List.range T).map (prog (stepsOf n).length T))).length = T := by simp [reversed]
  cases hr : reversed ((List.range T).map (prog (stepsOf n).length T)) with
  | nil =>
    rw [hr] at hlen
    simp at hlen
    omega
  | cons a l =>
    rw [List.mapM_cons, pick_empty n hl]
    rfl

/-- **C213.** With fewer than eight scenarios a tree builder raises IndexError even if it was constructed with numbers of
nodes, which would do; only numbers passed with the call are accepted. From eight scenarios on those of the object are used. -/
theorem C213_few_scenarios (prog : Prog) (hp : Spec.Rounded prog) (n T : ℕ) (hT : 1 ≤ T) (a : ℕ) (ns : List ℕ) (hlen : ns.length + 1 = T) (hne : T + 1 ≠ n) :
    (n < 8 → (∀ own, initNodes prog n T none own = .error .indexError) ∧ ∀ own, initNodes prog n T (some (a :: ns)) own = .ok (1 :: ns)) ∧
    (8 ≤ n → ∀ call own, call = some (a :: ns) ∨ (call = none ∧ own = some (a :: ns)) → initNodes prog n T call own = .ok (1 :: ns)) := by
  have eff : effectiveNodes n (a :: ns) = .ok (1 :: ns, 1 :: ns) := by
    unfold effectiveNodes
    rw [if_neg (by simp; omega)]
  constructor
  · intro hn
    constructor
    · intro own
      unfold initNodes chosen
      simp only [geometric_few prog n T hn hT]
    · intro own
      unfold initNodes chosen
      simp only [eff]
  · intro hn call own h
    have hl : 3 ≤ Nat.log 2 n := Nat.le_log_of_pow_le (by norm_num) hn
    obtain ⟨r, hg, -⟩ := geometric_ok prog hp n T hl hT
    rcases h with rfl | ⟨rfl, rfl⟩
    · unfold initNodes chosen
      simp only [eff]
    · unfold initNodes chosen
      simp only [hg, Option.getD_some, eff]

end PyF.TreeInit

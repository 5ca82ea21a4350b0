import Verif.Forward.Static

/-!
When the calls of the base constructors are accepted.
-/

namespace PyF.Forward

variable {V : Type}

/-- Keywords the class at the head of the chain cannot take although its bases have them (or none has): a constructor of the chain passes the name itself. -/
def reserved : List Cls → List String
  | [] => []
  | [_] => []
  | c :: b :: cs => ((b.params.take c.pos.length ++ c.kw.map Prod.fst) ++ reserved (b :: cs)).filter fun k => k ∉ c.params

/-- The call the class `c` makes of its base fits the signature of `b` whatever the values: arguments not given twice, names known, required ones given. -/
def Fits (c b : Cls) : Prop :=
  c.starBase = c.star ∧ (c.star = true → b.star = true) ∧ c.pos.length ≤ b.params.length ∧ (b.params.take c.pos.length ++ c.kw.map Prod.fst).Nodup ∧
    (b.star = false → ∀ k ∈ c.kw.map Prod.fst, k ∈ b.params) ∧ (∀ p ∈ b.params.take b.required, (passed c b p).isSome)

instance (c b : Cls) : Decidable (Fits c b) := by unfold Fits; infer_instance

/-- All calls of a chain fit and pass no name that is reserved further up. -/
def WF : List Cls → Prop
  | [] => True
  | [_] => True
  | c :: b :: cs => Fits c b ∧ (∀ k ∈ c.kw.map Prod.fst, k ∉ reserved (b :: cs)) ∧ WF (b :: cs)

def decWF : (l : List Cls) → Decidable (WF l)
  | [] => isTrue trivial
  | [_] => isTrue trivial
  | c :: b :: cs => by
    have := decWF (b :: cs)
    unfold WF
    infer_instance

instance (l : List Cls) : Decidable (WF l) := decWF l

theorem keys_superCall (W : World V) (c : Cls) (a : Call V) :
    (superCall W c a).kw.map Prod.fst = c.kw.map Prod.fst ++ if c.starBase then (a.kw.map Prod.fst).filter (fun k => k ∉ c.params) else [] := by
  unfold superCall extra
  simp only [List.map_append, List.map_map]
  congr 1
  cases c.starBase
  · rfl
  · simp only [if_true, List.filter_map]
    rfl

/-- The call of the base is accepted exactly if no further keyword of the caller has a name the class passes itself. -/
theorem accepts_superCall (W : World V) (c b : Cls) (a : Call V) (hf : Fits c b) (ha : Accepts c a) :
    Accepts b (superCall W c a) ↔ ∀ k ∈ a.kw.map Prod.fst, k ∉ c.params → k ∉ b.params.take c.pos.length ++ c.kw.map Prod.fst := by
  obtain ⟨f1, f2, f3, f4, f5, f6⟩ := hf
  obtain ⟨a1, a2, a3, a4, a5⟩ := ha
  have hlen : (superCall W c a).pos.length = c.pos.length := by simp [superCall]
  have hreq : ∀ p ∈ b.params.take b.required, (given b (superCall W c a) p).isSome := by
    intro p hp
    rw [given_superCall]
    obtain ⟨e, he⟩ := Option.isSome_iff_exists.mp (f6 p hp)
    simp [he]
  rw [List.nodup_append] at f4
  unfold Accepts
  rw [hlen, keys_superCall, f1]
  cases hs : c.star
  · have hx := a4 hs
    simp only [Bool.false_eq_true, if_false, List.append_nil]
    constructor
    · intro _ k hk hn; exact absurd (hx k hk) hn
    · intro _
      exact ⟨f3, f4.2.1, fun k hk hm => f4.2.2 k hm k hk rfl, f5, hreq⟩
  · simp only [if_true]
    constructor
    · rintro ⟨_, h2, h3, _, _⟩ k hk hn hm
      have hke : k ∈ (a.kw.map Prod.fst).filter (fun k => k ∉ c.params) := by simp [hk, hn, -List.mem_map]
      rcases List.mem_append.mp hm with hm | hm
      · exact h3 k (List.mem_append.mpr (Or.inr hke)) hm
      · rw [List.nodup_append] at h2
        exact h2.2.2 k hm k hke rfl
    · intro h
      have hext : ∀ k ∈ (a.kw.map Prod.fst).filter (fun k => k ∉ c.params), k ∉ b.params.take c.pos.length ++ c.kw.map Prod.fst := by
        intro k hk
        rw [List.mem_filter] at hk
        exact h k hk.1 (by simpa using hk.2)
      refine ⟨f3, ?_, ?_, ?_, hreq⟩
      · rw [List.nodup_append]
        refine ⟨f4.2.1, a2.filter _, ?_⟩
        rintro x hx y hy rfl
        exact hext x hy (List.mem_append.mpr (Or.inr hx))
      · intro k hk hm
        rcases List.mem_append.mp hk with hk | hk
        · exact f4.2.2 k hm k hk rfl
        · exact hext k hk (List.mem_append.mpr (Or.inl hm))
      · intro hb
        rw [f2 hs] at hb
        cases hb

/-- The construction is accepted exactly if the call of the class is and no keyword is reserved. -/
theorem run_ok_iff (W : World V) (c : Cls) (cs : List Cls) (a : Call V) (hw : WF (c :: cs)) :
    (∃ w, run W (c :: cs) a = .ok w) ↔ Accepts c a ∧ ∀ k ∈ a.kw.map Prod.fst, k ∉ reserved (c :: cs) := by
  induction cs generalizing c a with
  | nil =>
    constructor
    · rintro ⟨w, h⟩
      by_cases ha : Accepts c a
      · exact ⟨ha, fun k _ => by simp [reserved]⟩
      · simp [run, ha] at h
    · rintro ⟨ha, _⟩
      simp [run, ha]
  | cons b cs ih =>
    obtain ⟨hf, hk, hw'⟩ := hw
    have hres : ∀ k, k ∉ reserved (c :: b :: cs) ↔ (k ∉ c.params → k ∉ b.params.take c.pos.length ++ c.kw.map Prod.fst ∧ k ∉ reserved (b :: cs)) := by
      intro k
      simp only [reserved, List.mem_filter, List.mem_append, decide_eq_true_eq]
      tauto
    by_cases ha : Accepts c a
    · have hstep : (∃ w, run W (c :: b :: cs) a = .ok w) ↔ ∃ w, run W (b :: cs) (superCall W c a) = .ok w := by
        conv_lhs => rw [run]
        rw [if_pos ha]
        cases run W (b :: cs) (superCall W c a) <;> simp
      rw [hstep, ih b (superCall W c a) hw', accepts_superCall W c b a hf ha]
      have hkeys : (∀ k ∈ (superCall W c a).kw.map Prod.fst, k ∉ reserved (b :: cs)) ↔
          ∀ k ∈ a.kw.map Prod.fst, k ∉ c.params → k ∉ reserved (b :: cs) := by
        rw [keys_superCall, hf.1]
        cases hs : c.star
        · simp only [Bool.false_eq_true, if_false, List.append_nil]
          exact ⟨fun _ k hk hn => absurd (ha.2.2.2.1 hs k hk) hn, fun _ => hk⟩
        · simp only [if_true]
          constructor
          · intro h k hk' hn
            exact h k (List.mem_append.mpr (Or.inr (List.mem_filter.mpr ⟨hk', by simpa using hn⟩)))
          · intro h k hk'
            rcases List.mem_append.mp hk' with hk' | hk'
            · exact hk k hk'
            · rw [List.mem_filter] at hk'
              exact h k hk'.1 (by simpa using hk'.2)
      rw [hkeys]
      constructor
      · rintro ⟨h1, h2⟩
        exact ⟨ha, fun k hk => (hres k).mpr fun hn => ⟨h1 k hk hn, h2 k hk hn⟩⟩
      · rintro ⟨_, h⟩
        exact ⟨fun k hk hn => ((hres k).mp (h k hk) hn).1, fun k hk hn => ((hres k).mp (h k hk) hn).2⟩
    · constructor
      · rintro ⟨w, h⟩
        rw [run, if_neg ha] at h
        cases h
      · rintro ⟨h, _⟩
        exact absurd h ha

end PyF.Forward

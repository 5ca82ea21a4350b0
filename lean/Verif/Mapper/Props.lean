import Verif.Mapper.Model
import Mathlib.Data.List.Basic
import Mathlib.Data.List.Nodup
import Mathlib.Data.List.Perm.Basic
import Mathlib.Data.List.Forall2

/-! C282: `mapper` against the calls `f(p, *argv, **kwarg)`. -/

namespace PyF.Mapper
open PyF

variable {P V R : Type}

/-- The arguments of the call `f(p, *argv, **kw)` in Python: the first parameters take the values of `argv`, every other parameter
takes the value given to its name, and every name given is such a parameter. -/
def Binds (f : Fun P V R) (argv : List V) (kw : List (String × V)) (vals : List V) : Prop :=
  ∃ rest : List V, vals = argv ++ rest ∧ f.names.length = argv.length + rest.length ∧
    (∀ q, q ∈ kw ↔ q ∈ (f.names.drop argv.length).zip rest)

theorem starmap_const (f : Fun P V R) (args : List V) (pars : List P) : starmap f (pars.map (fun p => (p, args)))
    = if pars = [] ∨ args.length = f.names.length then .ok (pars.map (fun p => f.body p args)) else .error .typeError := by
  induction pars with
  | nil => rfl
  | cons p pars ih =>
    simp only [List.map_cons, starmap, Fun.call]
    by_cases h : args.length = f.names.length
    · rw [if_pos h, ih, if_pos (Or.inr h), if_pos (Or.inr h)]
    · rw [if_neg h, if_neg (by simp [h])]

/-- C282 (outcome): with at least two processors, at least one parameter and no shared memory, `mapper` returns the results in the
order of the parameters iff the number of values fits the function, and raises `TypeError` otherwise. -/
theorem C282_outcome (cpus : Nat) (hc : 2 ≤ cpus) (f : Fun P V R) (pars : List P) (hp : pars ≠ []) (argv : List V)
    (kw : List (String × V)) : mapper cpus f pars argv false kw
      = if argv.length + kw.length = f.names.length then .ok (pars.map (fun p => f.body p (argv ++ kw.map Prod.snd)))
        else .error .typeError := by
  unfold mapper
  rw [if_neg (by simp), if_neg (by omega), starmap_const]
  simp [hp]

/-- C282 (defects): on a machine with one processor, and with `sharedmem=True` and a positional argument, `mapper` raises, whatever
the function is. -/
theorem C282_raises (cpus : Nat) (f : Fun P V R) (pars : List P) (argv : List V) (sh : Bool) (kw : List (String × V)) :
    (argv ≠ [] → mapper cpus f pars argv true kw = .error .attributeError) ∧
    (cpus ≤ 1 → (mapper cpus f pars argv sh kw = .error .attributeError ∨ mapper cpus f pars argv sh kw = .error .valueError)) := by
  constructor
  · intro h
    unfold mapper
    rw [if_pos ⟨rfl, h⟩]
  · intro h
    unfold mapper
    by_cases h1 : sh = true ∧ argv ≠ []
    · rw [if_pos h1]; exact Or.inl rfl
    · rw [if_neg h1, if_pos (by omega)]; exact Or.inr rfl

theorem zip_order : ∀ (a b : List String) (v w : List V), a.length = v.length → a.Nodup → b.length = w.length →
    (∀ q, q ∈ b.zip w ↔ q ∈ a.zip v) → b = a → w = v := by
  intro a b v w ha hnd hb hq e
  subst e
  induction b generalizing v w with
  | nil =>
    rw [List.eq_nil_of_length_eq_zero hb.symm, List.eq_nil_of_length_eq_zero ha.symm]
  | cons x b ih =>
    cases v with
    | nil => cases ha
    | cons v0 v =>
      cases w with
      | nil => cases hb
      | cons w0 w =>
        have hx : x ∉ b := (List.nodup_cons.1 hnd).1
        have h0 : w0 = v0 := by
          have := (hq (x, w0)).1 (by simp)
          simp only [List.zip_cons_cons, List.mem_cons, Prod.mk.injEq, true_and] at this
          rcases this with h | h
          · exact h
          · exact absurd (List.of_mem_zip h).1 hx
        subst h0
        congr 1
        refine ih v w (by simpa using hb) (by simpa using ha) (List.nodup_cons.1 hnd).2 ?_
        intro q
        have := hq q
        simp only [List.zip_cons_cons, List.mem_cons] at this
        constructor
        · intro h
          rcases this.1 (Or.inr h) with h' | h'
          · subst h'
            exact absurd (List.of_mem_zip h).1 hx
          · exact h'
        · intro h
          rcases this.2 (Or.inr h) with h' | h'
          · subst h'
            exact absurd (List.of_mem_zip h).1 hx
          · exact h'

/-- C282 (keywords, right order): keywords given in the order of the declaration of the parameters reach the parameters of their
names: every result is the one of `f(p, *argv, **kw)`. -/
theorem C282_keywords_in_order (cpus : Nat) (hc : 2 ≤ cpus) (f : Fun P V R) (hf : f.names.Nodup) (pars : List P) (argv : List V)
    (kw : List (String × V)) (vals : List V) (hb : Binds f argv kw vals) (ho : kw.map Prod.fst = f.names.drop argv.length) :
    mapper cpus f pars argv false kw = .ok (pars.map (fun p => f.body p vals)) := by
  obtain ⟨rest, rfl, hl, hq⟩ := hb
  have hk : kw = (kw.map Prod.fst).zip (kw.map Prod.snd) := by
    induction kw with
    | nil => rfl
    | cons a l ih => exact List.zip_of_prod rfl rfl
  have hlen : (f.names.drop argv.length).length = rest.length := by rw [List.length_drop]; omega
  have he : kw.map Prod.snd = rest := by
    refine zip_order (f.names.drop argv.length) (kw.map Prod.fst) rest (kw.map Prod.snd) hlen
      (hf.sublist (List.drop_sublist _ _)) (by simp) ?_ ho
    intro q
    rw [← hk]
    exact hq q
  unfold mapper
  rw [if_neg (by simp), if_neg (by omega), starmap_const, if_pos]
  · rw [he]
  · right
    have : kw.length = rest.length := by rw [← he, List.length_map]
    simp [he, hl]

/-- C282 (keywords, defect): with a function that tells its arguments apart, keywords with different values are passed on
correctly only in the order of the declaration: in any other order every call gets its values at the wrong parameters. -/
theorem C282_keywords_iff (cpus : Nat) (hc : 2 ≤ cpus) (f : Fun P V R) (hf : f.names.Nodup)
    (hinj : ∀ (p : P) (a b : List V), f.body p a = f.body p b → a = b) (p : P) (pars : List P) (argv : List V) (kw : List (String × V))
    (hkv : (kw.map Prod.snd).Nodup) (vals : List V) (hb : Binds f argv kw vals) :
    mapper cpus f (p :: pars) argv false kw = .ok ((p :: pars).map (fun p => f.body p vals))
      ↔ kw.map Prod.fst = f.names.drop argv.length := by
  refine ⟨?_, C282_keywords_in_order cpus hc f hf (p :: pars) argv kw vals hb⟩
  intro h
  rw [C282_outcome cpus hc f _ (by simp)] at h
  split at h
  · have h1 := List.cons.inj (Except.ok.inj h)
    have h2 := hinj p _ _ h1.1
    obtain ⟨rest, rfl, hl, hq⟩ := hb
    have h3 : kw.map Prod.snd = rest := List.append_cancel_left h2
    subst h3
    have hlen : (f.names.drop argv.length).length = kw.length := by rw [List.length_drop]; simp at hl; omega
    -- every keyword is the parameter at the place of its value
    apply List.ext_getElem (by simp [hlen])
    intro i hi1 hi2
    have hi : i < kw.length := by simpa using hi1
    have hm : kw[i] ∈ (f.names.drop argv.length).zip (kw.map Prod.snd) := (hq _).1 (List.getElem_mem hi)
    obtain ⟨j, hj, hje⟩ := List.getElem_of_mem hm
    rw [List.getElem_zip] at hje
    have hj' : j < kw.length := by simp at hj; omega
    have e2 : (kw.map Prod.snd)[j]'(by simpa using hj') = (kw.map Prod.snd)[i]'(by simpa using hi) := by
      have := congrArg Prod.snd hje
      simpa using this
    have hij : j = i := (List.Nodup.getElem_inj_iff hkv).1 e2
    subst hij
    rw [List.getElem_map]
    exact (congrArg Prod.fst hje).symm
  · cases h

end PyF.Mapper

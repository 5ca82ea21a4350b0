import Verif.Forward.Spec

/-!
Where the value of an attribute comes from, computed from the signatures, and that the computation is right for all calls.
-/

namespace PyF.Forward

/-- Where a value comes from. -/
inductive Src where
  | arg (p k : String)
  | dflt (p k : String)
  | lit (s : String)
  | other
  | unset
  deriving DecidableEq

def lastE (l : List (String × Expr)) (x : String) : Option Expr := l.reverse.lookup x

def ofExpr (c : Cls) : Expr → Src
  | .par p => .arg p c.name
  | .lit s => .lit s
  | .fn _ => .other

/-- The expression the class passes to its base for the parameter `p`. -/
def passed (c b : Cls) (p : String) : Option Expr := (c.pos[b.params.idxOf p]?).or (c.kw.lookup p)

def srcBase (c : Cls) (cs : List Cls) (x : String) : Src → Src
  | .unset => match lastE c.pre x with
    | some e => ofExpr c e
    | none => .unset
  | .arg p k => match cs with
    | [] => .other
    | b :: _ => match passed c b p with
      | some e => ofExpr c e
      | none => if p ∉ c.params ∧ c.starBase then .arg p k else .dflt p k
  | s => s

def src : List Cls → String → Src
  | [], _ => .unset
  | c :: cs, x => match lastE c.post x with
    | some e => ofExpr c e
    | none => srcBase c cs x (src cs x)

variable {V : Type}

/-- The value a source stands for. -/
def Means (W : World V) (chain : List Cls) (a : Call V) (v : Option V) : Src → Prop
  | .arg p k => v = some ((asked chain a p).getD (W.dflt k p))
  | .dflt p k => v = some (W.dflt k p)
  | .lit s => v = some (W.lit s)
  | .other => True
  | .unset => v = none

theorem lookup_map (l : List (String × Expr)) (f : Expr → V) (x : String) :
    (l.map fun y => (y.1, f y.2)).lookup x = (l.lookup x).map f := by
  induction l with
  | nil => rfl
  | cons y l ih =>
    obtain ⟨k, e⟩ := y
    simp only [List.map_cons, List.lookup_cons]
    cases x == k <;> simp [ih]

theorem lookup_append {α : Type} (l l' : List (String × α)) (x : String) : (l ++ l').lookup x = (l.lookup x).or (l'.lookup x) := by
  induction l with
  | nil => simp
  | cons y l ih =>
    obtain ⟨k, e⟩ := y
    simp only [List.cons_append, List.lookup_cons]
    cases x == k <;> simp [ih]

theorem lookup_filter_of {α : Type} (l : List (String × α)) (P : String → Prop) [DecidablePred P] (x : String) :
    (l.filter fun y => decide (P y.1)).lookup x = if P x then l.lookup x else none := by
  induction l with
  | nil => simp
  | cons y l ih =>
    obtain ⟨k, e⟩ := y
    by_cases hk : P k
    · rw [List.filter_cons_of_pos (by simpa using hk)]
      simp only [List.lookup_cons]
      by_cases hx : x = k
      · subst hx; simp [hk]
      · simp [beq_eq_false_iff_ne.mpr hx, ih]
    · rw [List.filter_cons_of_neg (by simpa using hk), ih]
      by_cases hx : x = k
      · subst hx; simp [hk]
      · simp [List.lookup_cons, beq_eq_false_iff_ne.mpr hx]

theorem attr_append (w w' : List (String × V)) (x : String) : attr (w ++ w') x = (attr w' x).or (attr w x) := by
  simp [attr, lookup_append]

theorem attr_map (l : List (String × Expr)) (f : Expr → V) (x : String) : attr (l.map fun y => (y.1, f y.2)) x = (lastE l x).map f := by
  rw [attr, ← List.map_reverse, lookup_map, lastE]

/-- What the base is given. -/
theorem given_superCall (W : World V) (c b : Cls) (a : Call V) (p : String) :
    given b (superCall W c a) p =
      ((passed c b p).map (eval W (env W c a))).or (if c.starBase ∧ p ∉ c.params then kwOf a.kw p else none) := by
  have h1 : kwOf (superCall W c a).kw p = ((c.kw.lookup p).map (eval W (env W c a))).or (if c.starBase ∧ p ∉ c.params then kwOf a.kw p else none) := by
    rw [kwOf, superCall, lookup_append, lookup_map]
    congr 1
    cases hs : c.starBase
    · simp
    · have := lookup_filter_of a.kw (fun k => k ∉ c.params) p
      simp only [if_true, true_and, extra]
      rw [this]; rfl
  unfold given
  rw [h1, passed]
  simp only [superCall, List.getElem?_map]
  cases c.pos[List.idxOf p b.params]? <;> simp

theorem given_of_not_mem (c : Cls) (a : Call V) (p : String) (ha : Accepts c a) (hp : p ∉ c.params) : given c a p = kwOf a.kw p := by
  have : a.pos[c.params.idxOf p]? = none := by
    rw [List.getElem?_eq_none_iff, List.idxOf_eq_length hp]; exact ha.1
  simp [given, this]

theorem means_ofExpr (W : World V) (c : Cls) (cs : List Cls) (a : Call V) (e : Expr) : Means W (c :: cs) a (some (eval W (env W c a) e)) (ofExpr c e) := by
  cases e <;> simp [ofExpr, Means, eval, env, asked]

/-- The computed source is right. -/
theorem src_sound (W : World V) (chain : List Cls) (a : Call V) (w : List (String × V)) (h : run W chain a = .ok w) (x : String) :
    Means W chain a (attr w x) (src chain x) := by
  induction chain generalizing a w with
  | nil => cases h; simp [src, Means, attr]
  | cons c cs ih =>
    simp only [run] at h
    split at h
    case isFalse => cases h
    case isTrue ha =>
      cases hr : run W cs (superCall W c a) with
      | error e => rw [hr] at h; cases h
      | ok w' =>
        rw [hr] at h
        have hw := Except.ok.inj h
        subst hw
        rw [attr_append, attr_append, attr_map, attr_map, src]
        cases hp : lastE c.post x with
        | some e => simpa using means_ofExpr W c cs a e
        | none =>
          have hb := ih _ _ hr
          simp only [Option.map_none, Option.none_or]
          cases hs : src cs x with
          | unset =>
            rw [hs] at hb
            simp only [Means] at hb
            rw [hb, srcBase]
            cases hpre : lastE c.pre x with
            | some e => simpa using means_ofExpr W c cs a e
            | none => simp [Means]
          | dflt p k => rw [hs] at hb; simp only [Means] at hb; simp [srcBase, Means, hb]
          | lit s => rw [hs] at hb; simp only [Means] at hb; simp [srcBase, Means, hb]
          | other => simp [srcBase, Means]
          | arg p k =>
            rw [hs] at hb
            simp only [Means] at hb
            rw [hb]
            simp only [Option.some_or]
            cases cs with
            | nil => simp [srcBase, Means]
            | cons b cs =>
              simp only [asked, given_superCall, srcBase]
              cases hpass : passed c b p with
              | some e => simpa using means_ofExpr W c (b :: cs) a e
              | none =>
                by_cases h1 : p ∉ c.params ∧ c.starBase = true
                · simp only [h1, not_false_eq_true, and_self, if_true, Means, asked]
                  rw [given_of_not_mem c a p ha h1.1]
                  simp
                · rw [if_neg h1]
                  have h2 : ¬ (c.starBase = true ∧ p ∉ c.params) := fun h => h1 ⟨h.2, h.1⟩
                  rw [if_neg h2]
                  simp [Means]

theorem holds_of_src {chain : List Cls} {x p k : String} (h : src chain x = .arg p k) : Holds chain x p k := by
  intro V W a w hr
  have := src_sound W chain a w hr x
  rwa [h] at this

theorem alwaysDefault_of_src {chain : List Cls} {x p k : String} (h : src chain x = .dflt p k) : AlwaysDefault chain x p k := by
  intro V W a w hr
  have := src_sound W chain a w hr x
  rwa [h] at this

theorem alwaysConst_of_src {chain : List Cls} {x s : String} (h : src chain x = .lit s) : AlwaysConst chain x s := by
  intro V W a w hr
  have := src_sound W chain a w hr x
  rwa [h] at this

theorem neverSet_of_src {chain : List Cls} {x : String} (h : src chain x = .unset) : NeverSet chain x := by
  intro V W a w hr
  have := src_sound W chain a w hr x
  rwa [h] at this

end PyF.Forward

import Verif.Common
import Mathlib.Data.List.Sort
import Mathlib.Data.List.Dedup
import Mathlib.Order.Basic

/-!
Model of the row cap for the post-fit phase: `pyforecaster/forecaster.py` L17-23, L96-195.
-/

namespace PyF.Subsample

open PyF

/-- The Python values that may be passed as `max_scengen_rows` (`forecaster.py` L17-23).
`bool` is an `int` in Python, so it is covered by `int`. -/
inductive CapArg
  | none
  | int (v : Int)
  | other
  deriving DecidableEq, Repr

/-- `_validate_max_scengen_rows`, `forecaster.py` L17-23, followed by the store of
`int(max_scengen_rows)` at L68-69. The stored cap, or the exception raised at construction. -/
def validateCap : CapArg → Except PyErr (Option Nat)
  | .none => .ok .none
  | .other => .error .typeError
  | .int v => if v ≤ 0 then .error .valueError else .ok (.some v.toNat)

/-- A numpy `Generator` as an oracle (`np.random.default_rng(seed)`, L180): a state, and the two draws
the code makes. `multinomial g m counts` stands for `rng.multinomial(m, counts/counts.sum())` (L134-135),
`choice g pos k` for `rng.choice(pos, size=k, replace=False)` (L119, L162, L168). -/
structure Rng (G : Type) where
  seed : Int → G
  multinomial : G → Nat → List Nat → List Nat × G
  choice : G → List Nat → Nat → List Nat × G

/-- The documented contract of the two draws. -/
structure Rng.Lawful {G : Type} (R : Rng G) : Prop where
  multinomial_length : ∀ g m c, (R.multinomial g m c).1.length = c.length
  multinomial_sum : ∀ g m c, c.sum ≠ 0 → (R.multinomial g m c).1.sum = m
  choice_length : ∀ g pos k, k ≤ pos.length → (R.choice g pos k).1.length = k
  choice_subperm : ∀ g pos k, k ≤ pos.length → (R.choice g pos k).1.Subperm pos

/-- `_get_scengen_subsample_seed`, L96-102. `selfRs` is the `random_state` attribute when it exists and
is an int. -/
def subsampleSeed (scengenRs selfRs : Option Int) : Int :=
  match scengenRs with
  | some s => s
  | none => match selfRs with
    | some s => s
    | none => 0

/-- `np.unique` on a vector of naturals: the sorted distinct values. -/
def npUnique (l : List Nat) : List Nat := l.dedup.insertionSort (· ≤ ·)

section
variable {ι X Y G : Type} [LinearOrder ι]

/-- `_order_rows_by_index_order`, L104-116. Returns rows of `x` and `y` at `positions`, ordered by a
stable (`mergesort`) argsort of the index values (all stable sorts compute the same function; the model
uses Mathlib's stable insertion sort). -/
def orderRows (idx : List ι) (x : List X) (y : List Y) (positions : List Nat) :
    Except PyErr (List X × List Y) :=
  if positions.length = 0 then .ok ([], [])                                   -- L107-108
  else
    let positions :=                                                          -- L110-112
      if (npUnique positions).length < positions.length then npUnique positions else positions
    match takeRows idx positions with                                         -- L113
    | .error e => .error e
    | .ok keys =>
      let pos2 := ((keys.zip positions).insertionSort (fun a b => a.1 ≤ b.1)).map Prod.snd -- L114-115
      match takeRows x pos2, takeRows y pos2 with                             -- L116
      | .ok xs, .ok ys => .ok (xs, ys)
      | .error e, _ => .error e
      | _, .error e => .error e

/-- `_subsample_uniform`, L118-120 (`rng.choice(len(x), …)` draws from `0..n-1`). -/
def uniform (R : Rng G) (g : G) (idx : List ι) (x : List X) (y : List Y) (m : Nat) :
    Except PyErr (List X × List Y) :=
  if x.length < m then .error .valueError  -- numpy: cannot take a larger sample without replacement
  else orderRows idx x y (R.choice g (List.range x.length) m).1

/-- `int(np.max(a))` of a non-empty integer vector. -/
def maxZ (l : List Int) : Int := l.foldl max (l.headD 0)

/-- `np.argmax`: the first position of the maximum. -/
def argmaxZ (l : List Int) : Nat := l.idxOf (maxZ l)

/-- `counts - alloc`, L140. -/
def spare (counts alloc : List Nat) : List Int :=
  List.zipWith (fun (c a : Nat) => (c : Int) - (a : Int)) counts alloc

/-- The deficit loop, L139-145. `none` stands for leaving through the uniform fallback of L142. -/
def fillLoop (counts : List Nat) : (deficit : Nat) → (alloc : List Nat) → Option (List Nat)
  | 0, alloc => some alloc
  | d + 1, alloc =>
    let sp := spare counts alloc
    if maxZ sp = 0 then none
    else fillLoop counts d (alloc.modify (argmaxZ sp) (· + 1))

/-- The trim loop, L147-151. The recursion is bounded by `fuel`; called with `fuel = alloc.sum`, which
suffices because each round removes one unit from a positive entry. -/
def trimLoop (m : Nat) : (fuel : Nat) → (alloc : List Nat) → List Nat
  | 0, alloc => alloc
  | f + 1, alloc =>
    if alloc.sum > m ∧ maxZ (alloc.map (fun a => (a : Int))) > 0 then
      let j := argmaxZ (alloc.map (fun a => (a : Int)))
      if alloc.getD j 0 = 0 then alloc
      else trimLoop m f (alloc.modify j (· - 1))
    else alloc

/-- `np.flatnonzero(hours == h)`, L158. -/
def positionsOf (hours : List Nat) (h : Nat) : List Nat :=
  (List.range hours.length).filter (fun i => hours[i]? == some h)

/-- The selection loop over the strata, L152-163; threads the generator state. -/
def selectLoop (R : Rng G) (hours : List Nat) : G → List (Nat × Nat) → List (List Nat) × G
  | g, [] => ([], g)
  | g, (h, cTake) :: rest =>
    if cTake = 0 then selectLoop R hours g rest                                -- L155-156
    else
      let pos := positionsOf hours h                                          -- L157-158
      let c := min cTake pos.length                                           -- L159
      if c = 0 then selectLoop R hours g rest                                  -- L160-161
      else
        let r := R.choice g pos c                                             -- L162
        let s := selectLoop R hours r.2 rest
        (r.1 :: s.1, s.2)                                                      -- L163

/-- `_subsample_stratified_by_hour`, L122-169. `hour` is `index.hour`. -/
def stratified (hour : ι → Nat) (R : Rng G) (g : G) (idx : List ι) (x : List X) (y : List Y) (m : Nat) :
    Except PyErr (List X × List Y) :=
  let n := x.length
  let hours := idx.map hour
  let u := npUnique hours
  let counts := u.map (fun h => hours.count h)
  if m ≥ n ∨ u.length = 0 then .ok (x, y)                                      -- L129-130
  else if m < u.length then uniform R g idx x y m                              -- L132-133
  else
    let mn := R.multinomial g m counts                                        -- L134-135
    let g1 := mn.2
    let alloc := List.zipWith min mn.1 counts                                 -- L136
    match fillLoop counts (m - alloc.sum) alloc with                          -- L138-145
    | none => uniform R g1 idx x y m                                          -- L142
    | some alloc =>
      let alloc := trimLoop m alloc.sum alloc                                 -- L147-151
      let sel := selectLoop R hours g1 (u.zip alloc)                          -- L152-163
      if sel.1.isEmpty then uniform R sel.2 idx x y m                         -- L164-165
      else
        let pos := sel.1.flatten                                              -- L166
        let pos := if pos.length > m then                                     -- L167-168
            (R.choice sel.2 pos m).1.insertionSort (· ≤ ·) else pos
        orderRows idx x y pos                                                 -- L169

/-- A pandas frame reduced to what this code looks at: its index and its rows. -/
structure Frame (ι X : Type) where
  index : List ι
  rows : List X

/-- `_maybe_subsample_for_scengen`, L171-195. `dt` is `isinstance(x.index, DatetimeIndex)`. -/
def maybeSubsample (hour : ι → Nat) (R : Rng G) (cap : Option Nat) (scengenRs selfRs : Option Int)
    (dt : Bool) (x : Frame ι X) (y : Frame ι Y) : Except PyErr (List X × List Y) :=
  match cap with
  | none => .ok (x.rows, y.rows)                                              -- L175-176
  | some m =>
    if x.rows.length ≤ m then .ok (x.rows, y.rows)                            -- L175-176
    else if x.index ≠ y.index then .error .valueError                          -- L177-178
    else
      let g := R.seed (subsampleSeed scengenRs selfRs)                        -- L179-180
      if dt then stratified hour R g x.index x.rows y.rows m                   -- L181-188
      else uniform R g x.index x.rows y.rows m                                 -- L195

end
end PyF.Subsample

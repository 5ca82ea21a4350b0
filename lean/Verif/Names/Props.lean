import Verif.Names.Model
import Mathlib.Data.Nat.Digits.Lemmas
import Mathlib.Data.List.Nodup
import Mathlib.Data.List.TakeWhile

namespace PyF.Names

/-! ### Specification: readers -/

/-- Value of a digit character. -/
def charVal (c : Char) : Nat := c.toNat - '0'.toNat

/-- Read a decimal number. -/
def readNat (s : Str) : Nat := s.foldl (fun a c => a * 10 + charVal c) 0

/-- Read an optionally signed decimal number. -/
def readInt : Str → Int
  | '-' :: s => - (readNat s : Int)
  | s => readNat s

/-- Read the lag back from a column name: what follows the last underscore. -/
def readLag (s : Str) : Int := readInt (s.reverse.takeWhile (· ≠ '_')).reverse

/-- Seconds per unit letter. -/
def unitSecs (c : Char) : Option Nat :=
  if c = 'd' then some 86400 else if c = 'h' then some 3600 else if c = 'm' then some 60
  else if c = 's' then some 1 else none

/-- Read a duration: accumulate digits, at a unit letter add the accumulated number times the unit. -/
def readDurStep (st : Nat × Nat) (c : Char) : Nat × Nat :=
  match unitSecs c with
  | some u => (st.1 + st.2 * u, 0)
  | none => (st.1, st.2 * 10 + charVal c)

def readDuration : Str → Int
  | '-' :: s => - ((s.foldl readDurStep (0, 0)).1 : Int)
  | s => ((s.foldl readDurStep (0, 0)).1 : Int)

/-! ### Digits -/

theorem digitChar_isDigit : ∀ d < 10, Nat.digitChar d ∈ ['0', '1', '2', '3', '4', '5', '6', '7', '8', '9'] := by
  decide

theorem charVal_digitChar : ∀ d < 10, charVal (Nat.digitChar d) = d := by decide

abbrev IsDigit (c : Char) : Prop := c ∈ ['0', '1', '2', '3', '4', '5', '6', '7', '8', '9']

theorem digits_isDigit (n : Nat) : ∀ c ∈ digits n, IsDigit c := by
  intro c hc
  simp only [digits, List.mem_map, List.mem_reverse] at hc
  obtain ⟨d, hd, rfl⟩ := hc
  exact digitChar_isDigit d (Nat.digits_lt_base (by norm_num) hd)

theorem pad_isDigit (w n : Nat) : ∀ c ∈ pad w n, IsDigit c := by
  intro c hc
  simp only [pad, List.mem_append, List.mem_replicate] at hc
  rcases hc with ⟨_, rfl⟩ | hc
  · decide
  · exact digits_isDigit n c hc

theorem foldl_digits (l : List Nat) (hl : ∀ d ∈ l, d < 10) (a : Nat) :
    (l.reverse.map Nat.digitChar).foldl (fun a c => a * 10 + charVal c) a
      = a * 10 ^ l.length + Nat.ofDigits 10 l := by
  induction l generalizing a with
  | nil => simp
  | cons d l ih =>
    have hd := hl d List.mem_cons_self
    simp only [List.reverse_cons, List.map_append, List.foldl_append, List.map_cons, List.map_nil,
      List.foldl_cons, List.foldl_nil]
    rw [ih (fun e he => hl e (List.mem_cons_of_mem _ he)), charVal_digitChar d hd, Nat.ofDigits_cons,
      List.length_cons, pow_succ]
    ring_nf

theorem foldl_zeros (k a : Nat) :
    (List.replicate k '0').foldl (fun a c => a * 10 + charVal c) a = a * 10 ^ k := by
  induction k generalizing a with
  | zero => simp
  | succ k ih =>
    have : charVal '0' = 0 := by decide
    simp only [List.replicate_succ, List.foldl_cons, ih, this, pow_succ]
    ring

theorem foldl_pad (w n : Nat) :
    (pad w n).foldl (fun a c => a * 10 + charVal c) 0 = n := by
  have hd : ∀ d ∈ Nat.digits 10 n, d < 10 := fun d hd => Nat.digits_lt_base (by norm_num) hd
  rw [pad, List.foldl_append, foldl_zeros, digits, foldl_digits _ hd, Nat.ofDigits_digits]
  simp

theorem readNat_pad (w n : Nat) : readNat (pad w n) = n := foldl_pad w n

theorem pad_ne_nil (w n : Nat) (hw : 0 < w) : pad w n ≠ [] := by
  intro h
  have := congrArg List.length h
  simp only [pad, List.length_append, List.length_replicate, List.length_nil] at this
  omega

theorem not_minus_of_isDigit {c : Char} (h : IsDigit c) : c ≠ '-' ∧ c ≠ '_' ∧ unitSecs c = none := by
  simp only [IsDigit, List.mem_cons, List.not_mem_nil, or_false] at h
  rcases h with h | h | h | h | h | h | h | h | h | h <;> subst h <;> decide

theorem readInt_lagStr (l : Int) : readInt (lagStr l) = l := by
  unfold lagStr
  split
  · rename_i h
    have : readInt (pad 3 l.toNat) = readNat (pad 3 l.toNat) := by
      match hp : pad 3 l.toNat with
      | [] => rfl
      | c :: s =>
        have hc : c ≠ '-' := (not_minus_of_isDigit (pad_isDigit 3 l.toNat c (by rw [hp]; exact List.mem_cons_self))).1
        simp [readInt, hc]
    rw [this, readNat_pad]; omega
  · rename_i h
    show - (readNat (pad 3 (-l).toNat) : Int) = l
    rw [readNat_pad]; omega

theorem lagStr_no_underscore (l : Int) : ∀ c ∈ lagStr l, c ≠ '_' := by
  intro c hc
  unfold lagStr at hc
  split at hc
  · exact (not_minus_of_isDigit (pad_isDigit _ _ c hc)).2.1
  · rcases List.mem_cons.1 hc with rfl | hc
    · decide
    · exact (not_minus_of_isDigit (pad_isDigit _ _ c hc)).2.1

/-- C22 (recoverable): the lag is read back from the column name, for every variable name (which may itself contain
`_lag_`) and every lag, however large or negative. -/
theorem C22_lag_recoverable (name : Str) (l : Int) : readLag (lagName name l) = l := by
  have h1 : (lagName name l).reverse = (lagStr l).reverse ++ ('_' :: ("_lag".toList.reverse ++ name.reverse)) := by
    simp [lagName]
  have h2 : ∀ c ∈ (lagStr l).reverse, decide (c ≠ '_') = true := by
    intro c hc
    simpa using lagStr_no_underscore l c (List.mem_reverse.1 hc)
  have h3 : ((lagName name l).reverse.takeWhile (· ≠ '_')) = (lagStr l).reverse := by
    rw [h1, List.takeWhile_append_of_pos h2]
    simp
  unfold readLag
  rw [h3, List.reverse_reverse, readInt_lagStr]

/-- C22 (unique): distinct pairs of base name and lag give distinct column names. -/
theorem C22_lag_names_injective (n n' : Str) (l l' : Int) (h : lagName n l = lagName n' l') : n = n' ∧ l = l' := by
  have hl : l = l' := by
    rw [← C22_lag_recoverable n l, ← C22_lag_recoverable n' l', h]
  subst hl
  exact ⟨List.append_cancel_right h, rfl⟩

/-- C22 (no duplicates): the lagged names of one transformer are pairwise distinct when its base names and lags are. -/
theorem C22_lag_columns_nodup (names : List Str) (lags : List Int) (hn : names.Nodup) (hl : lags.Nodup) :
    (lags.flatMap (fun l => names.map (fun n => lagName n l))).Nodup := by
  rw [List.nodup_flatMap]
  refine ⟨fun l _ => hn.map (fun a b h => (C22_lag_names_injective a b l l h).1), ?_⟩
  refine hl.imp ?_
  intro a b hab c hc hc'
  simp only [List.mem_map] at hc hc'
  obtain ⟨n, _, rfl⟩ := hc
  obtain ⟨m, _, h⟩ := hc'
  exact hab (C22_lag_names_injective m n b a h).2.symm

/-- C22 (aggregations): with one aggregation label, names are distinct for distinct (variable, function) pairs as
long as the function names contain no underscore. -/
theorem C22_agg_names_injective (n n' agg f f' : Str) (hf : '_' ∉ f) (hf' : '_' ∉ f')
    (h : aggName n agg f = aggName n' agg f') : n = n' ∧ f = f' := by
  have key : ∀ (m g : Str), '_' ∉ g → (aggName m agg g).reverse.takeWhile (· ≠ '_') = g.reverse := by
    intro m g hg
    have h1 : (aggName m agg g).reverse = g.reverse ++ ('_' :: (agg.reverse ++ '_' :: m.reverse)) := by
      simp [aggName]
    have h2 : ∀ c ∈ g.reverse, decide (c ≠ '_') = true := by
      intro c hc
      have hc' := List.mem_reverse.1 hc
      simp only [ne_eq, decide_not, Bool.not_eq_eq_eq_not, Bool.not_true, decide_eq_false_iff_not]
      rintro rfl
      exact hg hc'
    rw [h1, List.takeWhile_append_of_pos h2]
    simp
  have e : f = f' := by
    have := key n f hf
    rw [h, key n' f' hf'] at this
    exact (List.reverse_injective this).symm
  subst e
  exact ⟨List.append_cancel_right h, rfl⟩

/-- C22 (collision): function names with underscores can make two different features share a column name. -/
theorem C22_agg_collision : ∃ n n' agg f f' : Str, (n, f) ≠ (n', f') ∧ aggName n agg f = aggName n' agg f' :=
  ⟨"x".toList, "x_1h".toList, "1h".toList, "1h_mean".toList, "mean".toList, by decide, by decide⟩

/-! ### hr_timedelta -/

theorem foldl_durStep_digits (s : Str) (hs : ∀ c ∈ s, IsDigit c) (st : Nat × Nat) :
    s.foldl readDurStep st = (st.1, s.foldl (fun a c => a * 10 + charVal c) st.2) := by
  induction s generalizing st with
  | nil => rfl
  | cons c s ih =>
    have hc := (not_minus_of_isDigit (hs c List.mem_cons_self)).2.2
    simp only [List.foldl_cons]
    rw [ih (fun d hd => hs d (List.mem_cons_of_mem _ hd))]
    simp [readDurStep, hc]

theorem foldl_pad_unit (w n u tot : Nat) (c : Char) (hc : unitSecs c = some u) :
    (pad w n ++ [c]).foldl readDurStep (tot, 0) = (tot + n * u, 0) := by
  rw [List.foldl_append, foldl_durStep_digits _ (pad_isDigit w n), foldl_pad w n]
  simp [readDurStep, hc]

theorem foldl_part (n u tot : Nat) (c : Char) (hc : unitSecs c = some u) :
    (part n c).foldl readDurStep (tot, 0) = (tot + n * u, 0) := by
  unfold part
  split
  · exact foldl_pad_unit 1 n u tot c hc
  · have : n = 0 := by omega
    simp [this]

/-- The unsigned part of the rendering. -/
def body (zp : Bool) (a : Nat) : Str :=
  let s := a % 60
  let days := a / (3600 * 24)
  let hours := (a - days * 3600 * 24) / 3600
  let minutes := (a - days * 3600 * 24 - hours * 3600) / 60
  if zp then
    (pad 2 days ++ ['d']) ++ (pad 2 hours ++ ['h']) ++ (pad 2 minutes ++ ['m'])
      ++ (if s > 0 then pad 2 s ++ ['s'] else [])
  else part days 'd' ++ part hours 'h' ++ part minutes 'm' ++ part s 's'

theorem hr_body (zp : Bool) (t : Int) :
    hrTimedelta zp t = if t < 0 then '-' :: body zp t.natAbs else body zp t.natAbs := rfl

theorem decompose (a : Nat) :
    a / (3600 * 24) * 86400 + (a - a / (3600 * 24) * 3600 * 24) / 3600 * 3600
      + (a - a / (3600 * 24) * 3600 * 24 - (a - a / (3600 * 24) * 3600 * 24) / 3600 * 3600) / 60 * 60
      + a % 60 * 1 = a := by
  omega

theorem read_body (zp : Bool) (a : Nat) : ((body zp a).foldl readDurStep (0, 0)).1 = a := by
  have hd : unitSecs 'd' = some 86400 := by decide
  have hh : unitSecs 'h' = some 3600 := by decide
  have hm : unitSecs 'm' = some 60 := by decide
  have hs : unitSecs 's' = some 1 := by decide
  have hdec := decompose a
  cases zp with
  | true =>
    simp only [body, if_true]
    rw [List.foldl_append (l' := ite _ _ _), List.foldl_append (l' := pad 2 _ ++ ['m']),
      List.foldl_append (l' := pad 2 _ ++ ['h']), foldl_pad_unit 2 _ _ _ _ hd,
      foldl_pad_unit 2 _ _ _ _ hh, foldl_pad_unit 2 _ _ _ _ hm]
    split
    · rw [foldl_pad_unit 2 _ _ _ _ hs]
      simp only
      omega
    · simp only [List.foldl_nil]
      omega
  | false =>
    simp only [body, Bool.false_eq_true, if_false]
    rw [List.foldl_append, List.foldl_append, List.foldl_append, foldl_part _ _ _ _ hd, foldl_part _ _ _ _ hh,
      foldl_part _ _ _ _ hm, foldl_part _ _ _ _ hs]
    simp only
    omega

theorem body_head (zp : Bool) (a : Nat) : ∀ c s, body zp a = c :: s → c ≠ '-' := by
  have hpad : ∀ w n (r : Str) c s, 0 < w → pad w n ++ r = c :: s → c ≠ '-' := by
    intro w n r c s hw h
    match hp : pad w n with
    | [] => exact absurd hp (pad_ne_nil w n hw)
    | d :: p =>
      rw [hp] at h
      simp only [List.cons_append, List.cons.injEq] at h
      rw [← h.1]
      exact (not_minus_of_isDigit (pad_isDigit w n d (by rw [hp]; exact List.mem_cons_self))).1
  have hpart : ∀ n u (r : Str), (∀ c s, r = c :: s → c ≠ '-') → ∀ c s, part n u ++ r = c :: s → c ≠ '-' := by
    intro n u r hr c s h
    unfold part at h
    split at h
    · rw [List.append_assoc] at h
      exact hpad 1 n _ c s (by norm_num) h
    · exact hr c s (by simpa using h)
  intro c s h
  cases zp with
  | true =>
    simp only [body, if_true, List.append_assoc] at h
    exact hpad 2 _ _ c s (by norm_num) h
  | false =>
    simp only [body, Bool.false_eq_true, if_false, List.append_assoc] at h
    refine hpart _ _ _ (hpart _ _ _ (hpart _ _ _ ?_)) c s h
    intro c s h
    exact hpart _ 's' [] (fun c s h => by cases h) c s (by simpa using h)

/-- C23: the duration in whole seconds, of any sign and size, is read back from `hr_timedelta`, with or without
zero padding. -/
theorem C23_duration_recoverable (zp : Bool) (t : Int) : readDuration (hrTimedelta zp t) = t := by
  rw [hr_body]
  split
  · show - (((body zp t.natAbs).foldl readDurStep (0, 0)).1 : Int) = t
    rw [read_body]; omega
  · have : readDuration (body zp t.natAbs) = (((body zp t.natAbs).foldl readDurStep (0, 0)).1 : Int) := by
      match hb : body zp t.natAbs with
      | [] => rfl
      | c :: s =>
        have := body_head zp t.natAbs c s hb
        simp [readDuration, this]
    rw [this, read_body]; omega

/-- C23 (injective): distinct durations get distinct strings. -/
theorem C23_hr_timedelta_injective (zp : Bool) (t t' : Int) (h : hrTimedelta zp t = hrTimedelta zp t') : t = t' := by
  rw [← C23_duration_recoverable zp t, h, C23_duration_recoverable]

/-- C23 (empty string): without padding only the zero duration is rendered as the empty string. -/
theorem C23_empty_iff (t : Int) : hrTimedelta false t = [] ↔ t = 0 := by
  constructor
  · intro h
    have := C23_duration_recoverable false t
    rw [h] at this
    exact this.symm
  · rintro rfl; decide

/-! ### Concrete instances -/

example : lagName "power".toList 7 = "power_lag_007".toList := by decide +kernel
example : lagName "power".toList (-12) = "power_lag_-012".toList := by decide +kernel
example : lagName "power".toList 12345 = "power_lag_12345".toList := by decide +kernel
example : lagName "a_lag_001".toList 2 = "a_lag_001_lag_002".toList := by decide +kernel
example : hrTimedelta false 93784 = "1d2h3m4s".toList := by decide +kernel
example : hrTimedelta true (-3600) = "-00d01h00m".toList := by decide +kernel
example : hrTimedelta false 0 = [] := by decide +kernel

end PyF.Names

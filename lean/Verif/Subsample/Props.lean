import Verif.Subsample.Lemmas
import Mathlib.Algebra.BigOperators.Group.Finset.Basic

/-!
Properties C01-C04: the row cap of the post-fit phase.
-/

namespace PyF.Subsample
open PyF Spec

section
variable {ι X Y G : Type} [LinearOrder ι]

/-- A uniform draw yields exactly `m` distinct rows, aligned, time sorted. -/
theorem uniform_spec {R : Rng G} (hR : R.Lawful) (g : G) (idx : List ι) (x : List X) (y : List Y)
    (m : Nat) (hix : idx.length = x.length) (hxy : x.length = y.length) (hm : m ≤ x.length) :
    ∃ pos xs ys, uniform R g idx x y m = .ok (xs, ys) ∧ pos.Nodup ∧ pos.length = m ∧
      RowsAt pos x xs ∧ RowsAt pos y ys ∧ InTimeOrder idx pos := by
  have hl : m ≤ (List.range x.length).length := by simpa using hm
  have hs := hR.choice_subperm g (List.range x.length) m hl
  have hlen := hR.choice_length g (List.range x.length) m hl
  have hnd : (R.choice g (List.range x.length) m).1.Nodup := by
    obtain ⟨l, hl1, hl2⟩ := hs
    exact hl1.nodup_iff.1 (List.nodup_range.sublist hl2)
  have hlt : ∀ p ∈ (R.choice g (List.range x.length) m).1, p < x.length :=
    fun p hp => List.mem_range.1 (hs.subset hp)
  obtain ⟨pos2, xs, ys, h1, h2, h3, h4, h5⟩ := orderRows_spec idx x y _ hnd
    (fun p hp => hix ▸ hlt p hp) hlt (fun p hp => hxy ▸ hlt p hp)
  refine ⟨pos2, xs, ys, ?_, h5.1.nodup_iff.2 hnd, by rw [h5.1.length_eq, hlen], h2, h3, h4⟩
  rw [uniform, if_neg (by omega), h1]

omit [LinearOrder ι] in
theorem keptAtHour_perm (hour : ι → Nat) (idx : List ι) {p q : List Nat} (h : p.Perm q) (k : Nat) :
    keptAtHour hour idx p k = keptAtHour hour idx q k := h.countP_eq _

/-- The stratified path in full. When the cap is below the frame length and at least the number of
hours present, exactly `m` distinct rows are selected; hour `h` keeps at least
`min (its multinomial draw) (its available rows)` and never more than its available rows. -/
theorem stratified_spec (hour : ι → Nat) {R : Rng G} (hR : R.Lawful) (g : G) (idx : List ι)
    (x : List X) (y : List Y) (m : Nat) (hix : idx.length = x.length) (hxy : x.length = y.length)
    (hm : m < x.length) (hu : (npUnique (idx.map hour)).length ≤ m) :
    ∃ pos xs ys, stratified hour R g idx x y m = .ok (xs, ys) ∧ pos.Nodup ∧ pos.length = m ∧
      RowsAt pos x xs ∧ RowsAt pos y ys ∧ InTimeOrder idx pos ∧
      ∀ (k h c d : Nat), (npUnique (idx.map hour))[k]? = some h →
        (R.multinomial g m ((npUnique (idx.map hour)).map fun h => (idx.map hour).count h)).1[k]? = some d →
        availableAtHour hour idx h = c →
        min d c ≤ keptAtHour hour idx pos h ∧ keptAtHour hour idx pos h ≤ c := by
  set hours := idx.map hour with hhours
  set u := npUnique hours with hudef
  set counts := u.map (fun h => hours.count h) with hcounts
  have hupos : u.length ≠ 0 := by
    intro h0
    have : u = [] := List.length_eq_zero_iff.1 h0
    cases hidx : idx with
    | nil => rw [hidx] at hix; simp at hix; omega
    | cons i l =>
      have : hour i ∈ u := mem_npUnique.2 (by rw [hhours, hidx]; simp)
      simp_all
  have hcsum : counts.sum = x.length := by
    have h1 : counts.Perm (hours.dedup.map (fun h => hours.count h)) := (npUnique_perm hours).map _
    rw [h1.sum_eq, List.sum_map_count_dedup_eq_length, hhours, List.length_map, hix]
  set mn := R.multinomial g m counts with hmn
  have hmnl : mn.1.length = counts.length := hR.multinomial_length _ _ _
  have hmns : mn.1.sum = m := hR.multinomial_sum _ _ _ (by omega)
  set a0 := List.zipWith min mn.1 counts with ha0
  have ha0l : a0.length = counts.length := by simp [ha0, hmnl]
  have ha0c : List.Forall₂ (· ≤ ·) a0 counts := by
    apply forall₂_le_of_getElem ha0l
    intro i h1 h2
    simp only [ha0, List.getElem_zipWith]
    exact Nat.min_le_right _ _
  have ha0m : List.Forall₂ (· ≤ ·) a0 mn.1 := by
    apply forall₂_le_of_getElem (by omega)
    intro i h1 h2
    simp only [ha0, List.getElem_zipWith]
    exact Nat.min_le_left _ _
  have ha0s : a0.sum ≤ m := by
    rw [← hmns]
    exact ha0m.sum_le_sum
  obtain ⟨al, hf, hal0, halc, hals⟩ := fillLoop_spec counts (m - a0.sum) a0 ha0c (by omega)
  have halm : al.sum = m := by omega
  have hall : al.length = u.length := by rw [halc.length_eq, hcounts, List.length_map]
  have hL1 : (u.zip al).map Prod.fst = u := List.map_fst_zip (by omega)
  have hL2 : (u.zip al).map Prod.snd = al := List.map_snd_zip (by omega)
  have hcapL : ∀ e ∈ u.zip al, e.2 ≤ hours.count e.1 := by
    intro e he
    obtain ⟨i, hi, rfl⟩ := List.mem_iff_getElem.1 he
    have hi1 : i < u.length := by rw [List.length_zip] at hi; omega
    have := forall₂_le_getElem halc i (by omega) (by rw [hcounts, List.length_map]; exact hi1)
    simp only [List.getElem_zip]
    simpa [hcounts] using this
  obtain ⟨s1, s2, s3, s4⟩ := selectLoop_spec hR hours (u.zip al) mn.2
    (by rw [hL1]; exact npUnique_nodup _) hcapL
  set sel := selectLoop R hours mn.2 (u.zip al) with hsel
  rw [hL2, halm] at s4
  have hne : sel.1.isEmpty = false := by
    cases hs : sel.1 with
    | nil => rw [hs] at s4; simp at s4; omega
    | cons a l => rfl
  have hhl : hours.length = x.length := by rw [hhours, List.length_map, hix]
  have hlt : ∀ p ∈ sel.1.flatten, p < x.length := by
    intro p hp
    obtain ⟨e, _, he⟩ := s2 p hp
    by_contra hc
    rw [List.getElem?_eq_none (by omega)] at he
    cases he
  obtain ⟨pos2, xs, ys, h1, h2, h3, h4, h5⟩ := orderRows_spec idx x y _ s1
    (fun p hp => hix ▸ hlt p hp) hlt (fun p hp => hxy ▸ hlt p hp)
  refine ⟨pos2, xs, ys, ?_, h5.1.nodup_iff.2 s1, by rw [h5.1.length_eq, s4], h2, h3, h4, ?_⟩
  · unfold stratified
    simp only [← hhours, ← hudef, ← hcounts, ← hmn, ← ha0]
    rw [if_neg (by omega), if_neg (by omega), hf]
    simp only [trimLoop_of_le m al.sum al (by omega), ← hsel, hne]
    rw [if_neg (by simp), if_neg (by omega), h1]
  · intro k h c d hk hd hc
    rw [keptAtHour_perm hour idx h5.1]
    obtain ⟨hku, hkh⟩ := List.getElem?_eq_some_iff.1 hk
    obtain ⟨hkd, hkd'⟩ := List.getElem?_eq_some_iff.1 hd
    have hmem : (h, al[k]'(by omega)) ∈ u.zip al := by
      rw [List.mem_iff_getElem]
      exact ⟨k, by rw [List.length_zip]; omega, by rw [List.getElem_zip, hkh]⟩
    have hkept : keptAtHour hour idx sel.1.flatten h = al[k]'(by omega) := by
      refine Eq.trans ?_ (s3 _ hmem)
      unfold keptAtHour
      apply List.countP_congr
      intro p _
      simp [hhours]
    have havail : hours.count h = c := by
      rw [← hc, hhours]
      unfold availableAtHour List.count
      rw [List.countP_map]; rfl
    rw [hkept]
    constructor
    · have hk1 : k < a0.length := by rw [ha0l, hcounts, List.length_map]; exact hku
      refine le_trans (le_of_eq ?_) (forall₂_le_getElem hal0 k hk1 (by omega))
      simp [ha0, hcounts, hkh, hkd', havail]
    · rw [← havail]
      exact hcapL _ hmem

/-- **C01 / C02.** For every lawful generator, whatever it draws: with cap `m` the post-fit phase
receives exactly `min n m` rows, at pairwise distinct positions of the input frame; feature row and
target row come from the same position; when rows were dropped they come in time order. The call
never raises. -/
theorem C01_row_cap_exact (hour : ι → Nat) {R : Rng G} (hR : R.Lawful) (m : Nat)
    (scengenRs selfRs : Option Int) (dt : Bool) (x : Frame ι X) (y : Frame ι Y)
    (hx : x.index.length = x.rows.length) (hy : y.index.length = y.rows.length)
    (hxy : x.index = y.index) :
    ∃ pos xs ys, maybeSubsample hour R (some m) scengenRs selfRs dt x y = .ok (xs, ys) ∧
      pos.Nodup ∧ pos.length = min x.rows.length m ∧ xs.length = min x.rows.length m ∧
      RowsAt pos x.rows xs ∧ RowsAt pos y.rows ys ∧
      (m < x.rows.length → InTimeOrder x.index pos) := by
  have hlen : x.rows.length = y.rows.length := by rw [← hx, ← hy, hxy]
  have hrows : ∀ {α : Type} {pos : List Nat} {t r : List α}, RowsAt pos t r → r.length = pos.length := by
    intro α pos t r h
    simpa using (congrArg List.length h).symm
  have hid : ∀ {α : Type} (t : List α), RowsAt (List.range t.length) t t := by
    intro α t
    unfold RowsAt
    apply List.ext_getElem? 
    intro i
    simp only [List.getElem?_map]
    by_cases hi : i < t.length
    · simp [hi]
    · simp [hi]
  by_cases hle : x.rows.length ≤ m
  · refine ⟨List.range x.rows.length, x.rows, y.rows, ?_, List.nodup_range, by simp; omega,
      by omega, hid _, by rw [hlen]; exact hid _, by omega⟩
    simp [maybeSubsample, hle]
  · have hcore : ∃ pos xs ys, maybeSubsample hour R (some m) scengenRs selfRs dt x y = .ok (xs, ys) ∧
        pos.Nodup ∧ pos.length = m ∧ RowsAt pos x.rows xs ∧ RowsAt pos y.rows ys ∧
        InTimeOrder x.index pos := by
      simp only [maybeSubsample, if_neg hle, hxy, ne_eq, not_true_eq_false, if_false]
      rw [← hxy]
      cases dt with
      | false => simpa using uniform_spec hR _ x.index x.rows y.rows m hx hlen (by omega)
      | true =>
        simp only [if_true]
        by_cases hu : (npUnique (x.index.map hour)).length ≤ m
        · obtain ⟨pos, xs, ys, h1, h2, h3, h4, h5, h6, -⟩ :=
            stratified_spec hour hR (R.seed (subsampleSeed scengenRs selfRs)) x.index x.rows y.rows m
              hx hlen (by omega) hu
          exact ⟨pos, xs, ys, h1, h2, h3, h4, h5, h6⟩
        · have heq : stratified hour R (R.seed (subsampleSeed scengenRs selfRs)) x.index x.rows y.rows m
              = uniform R (R.seed (subsampleSeed scengenRs selfRs)) x.index x.rows y.rows m := by
            unfold stratified
            simp only
            rw [if_neg (by omega), if_pos (by omega)]
          rw [heq]
          exact uniform_spec hR _ x.index x.rows y.rows m hx hlen (by omega)
    obtain ⟨pos, xs, ys, h1, h2, h3, h4, h5, h6⟩ := hcore
    exact ⟨pos, xs, ys, h1, h2, by omega, by rw [hrows h4]; omega, h4, h5, fun _ => h6⟩

/-- **C02.** Whatever duplicate-free positions are drawn, the ordering step returns the feature and
target rows at one common list of positions, in time order, that is a stable rearrangement of the
draw: rows with equal time stamps keep the order in which they were drawn. -/
theorem C02_aligned_and_stable (idx : List ι) (x : List X) (y : List Y) (drawn : List Nat)
    (hnd : drawn.Nodup) (hix : idx.length = x.length) (hxy : x.length = y.length)
    (hr : ∀ p ∈ drawn, p < x.length) :
    ∃ pos xs ys, orderRows idx x y drawn = .ok (xs, ys) ∧ RowsAt pos x xs ∧ RowsAt pos y ys ∧
      InTimeOrder idx pos ∧ StableReorder idx drawn pos :=
  orderRows_spec idx x y drawn hnd (fun p hp => hix ▸ hr p hp) hr (fun p hp => hxy ▸ hr p hp)

/-- **C03 (a).** The redistribution loop, started from any draw capped by the available counts, never
reaches its fallback when the cap does not exceed the number of rows; it assigns exactly the
shortfall and never exceeds what is available. -/
theorem C03_fill_terminates (counts draw : List Nat) (m : Nat) (hl : draw.length = counts.length)
    (hm : m ≤ counts.sum) :
    let capped := List.zipWith min draw counts
    capped.sum ≤ m →
    ∃ a, fillLoop counts (m - capped.sum) capped = some a ∧ a.sum = m ∧
      List.Forall₂ (· ≤ ·) capped a ∧ List.Forall₂ (· ≤ ·) a counts := by
  intro capped hcap
  have hc : List.Forall₂ (· ≤ ·) capped counts := by
    apply forall₂_le_of_getElem (by simp [capped, hl])
    intro i h1 h2
    simp only [capped, List.getElem_zipWith]
    exact Nat.min_le_right _ _
  obtain ⟨a, h1, h2, h3, h4⟩ := fillLoop_spec counts (m - capped.sum) capped hc (by omega)
  exact ⟨a, h1, by omega, h2, h3⟩

/-- **C03 (b).** Per-hour counts of the rows that the stratified path hands over: at least the capped
multinomial draw of that hour, at most the rows available at that hour. -/
theorem C03_hours_within_available (hour : ι → Nat) {R : Rng G} (hR : R.Lawful) (g : G) (idx : List ι)
    (x : List X) (y : List Y) (m : Nat) (hix : idx.length = x.length) (hxy : x.length = y.length)
    (hm : m < x.length) (hu : (npUnique (idx.map hour)).length ≤ m) :
    ∃ pos xs ys, stratified hour R g idx x y m = .ok (xs, ys) ∧ RowsAt pos x xs ∧
      (∀ h, keptAtHour hour idx pos h ≤ availableAtHour hour idx h) ∧
      ∀ (k h d : Nat), (npUnique (idx.map hour))[k]? = some h →
        (R.multinomial g m ((npUnique (idx.map hour)).map fun h => (idx.map hour).count h)).1[k]? = some d →
        min d (availableAtHour hour idx h) ≤ keptAtHour hour idx pos h := by
  obtain ⟨pos, xs, ys, h1, h2, h3, h4, h5, h6, h7⟩ := stratified_spec hour hR g idx x y m hix hxy hm hu
  refine ⟨pos, xs, ys, h1, h4, ?_, fun k h d hk hd => (h7 k h _ d hk hd rfl).1⟩
  intro h
  by_cases hh : h ∈ npUnique (idx.map hour)
  · obtain ⟨k, hk, hkh⟩ := List.mem_iff_getElem.1 hh
    have hlen : (R.multinomial g m ((npUnique (idx.map hour)).map fun h => (idx.map hour).count h)).1.length
        = (npUnique (idx.map hour)).length := by rw [hR.multinomial_length, List.length_map]
    exact (h7 k h _ _ (by rw [List.getElem?_eq_getElem hk, hkh])
      (List.getElem?_eq_getElem (by omega)) rfl).2
  · rw [mem_npUnique] at hh
    have : keptAtHour hour idx pos h = 0 := by
      unfold keptAtHour
      rw [List.countP_eq_zero]
      intro p _ hp
      apply hh
      cases hpi : idx[p]? with
      | none => simp [hpi] at hp
      | some v =>
        simp only [hpi, Option.map_some, beq_iff_eq, Option.some.injEq] at hp
        exact List.mem_map.2 ⟨v, List.mem_of_getElem? hpi, hp⟩
    omega

/-- **C04.** The decision logic of the cap, outright. -/
theorem C04_inactive_cap (hour : ι → Nat) (R : Rng G) (scengenRs selfRs : Option Int) (dt : Bool)
    (x : Frame ι X) (y : Frame ι Y) :
    maybeSubsample hour R none scengenRs selfRs dt x y = .ok (x.rows, y.rows) ∧
    (∀ m, x.rows.length ≤ m →
      maybeSubsample hour R (some m) scengenRs selfRs dt x y = .ok (x.rows, y.rows)) ∧
    (∀ m, m < x.rows.length → x.index ≠ y.index →
      maybeSubsample hour R (some m) scengenRs selfRs dt x y = .error .valueError) := by
  refine ⟨rfl, ?_, ?_⟩
  · intro m h; simp [maybeSubsample, h]
  · intro m h hne
    simp [maybeSubsample, Nat.not_le.2 h, hne]

omit [LinearOrder ι] in
/-- **C04.** The constructor accepts exactly `None` and the positive integers; a stored cap is always
positive and equals the argument. -/
theorem C04_constructor (a : CapArg) :
    (a = .none → validateCap a = .ok none) ∧
    (∀ v : Int, a = .int v → 0 < v → ∃ m : Nat, validateCap a = .ok (some m) ∧ (m : Int) = v ∧ 0 < m) ∧
    (∀ v : Int, a = .int v → v ≤ 0 → validateCap a = .error .valueError) ∧
    (a = .other → validateCap a = .error .typeError) := by
  refine ⟨?_, ?_, ?_, ?_⟩
  · rintro rfl; rfl
  · rintro v rfl hv
    exact ⟨v.toNat, by simp [validateCap, not_le.2 hv], by omega, by omega⟩
  · rintro v rfl hv; simp [validateCap, hv]
  · rintro rfl; rfl

/-- **C04.** An inactive cap consumes no randomness: two arbitrary generators give the same result. -/
theorem C04_no_randomness (hour : ι → Nat) (R R' : Rng G) (cap : Option Nat) (s1 s2 t1 t2 : Option Int)
    (dt : Bool) (x : Frame ι X) (y : Frame ι Y) (h : ∀ m, cap = some m → x.rows.length ≤ m) :
    maybeSubsample hour R cap s1 s2 dt x y = maybeSubsample hour R' cap t1 t2 dt x y := by
  cases cap with
  | none => rfl
  | some m => simp [maybeSubsample, h m rfl]

/-- **C02.** Which seed is used: `scengen_random_state` if given, whatever `random_state` is; else the object's
integer `random_state`; else 0. In particular equal seeds give equal subsamples. -/
theorem C02_seed_precedence (hour : ι → Nat) (R : Rng G) (cap : Option Nat) (s : Int) (a b : Option Int)
    (dt : Bool) (x : Frame ι X) (y : Frame ι Y) :
    maybeSubsample hour R cap (some s) a dt x y = maybeSubsample hour R cap (some s) b dt x y ∧
    maybeSubsample hour R cap none (some s) dt x y = maybeSubsample hour R cap (some s) none dt x y ∧
    maybeSubsample hour R cap none none dt x y = maybeSubsample hour R cap (some 0) none dt x y :=
  ⟨rfl, rfl, rfl⟩

end

/-! ### Concrete instances -/

/-- A lawful generator: the multinomial puts everything on the first stratum, `choice` takes the
first `k`. -/
def firstRng : Rng Unit where
  seed _ := ()
  multinomial _ m c := ((match c with | [] => [] | _ :: t => m :: t.map (fun _ => 0)), ())
  choice _ pos k := (pos.take k, ())

theorem firstRng_lawful : firstRng.Lawful where
  multinomial_length := by intro _ m c; cases c <;> simp [firstRng]
  multinomial_sum := by
    intro _ m c hc
    cases c with
    | nil => simp at hc
    | cons a t => simp [firstRng]
  choice_length := by intro _ pos k h; simp [firstRng, h]
  choice_subperm := by intro _ pos k _; exact (List.take_sublist k pos).subperm

/-- Quarter-hourly-like test index: hour `i / 2`. -/
def exFrame : Frame Nat Nat := ⟨[0, 1, 2, 3, 4], [10, 11, 12, 13, 14]⟩

example : maybeSubsample (fun i => i / 2) firstRng (some 3) none none true exFrame exFrame
    = .ok ([10, 11, 12], [10, 11, 12]) := by decide +kernel

example : exFrame.index.length = exFrame.rows.length := rfl

example : fillLoop [2, 2, 1] 1 [2, 0, 0] = some [2, 1, 0] := by decide +kernel

example : orderRows [5, 3, 5, 3] ["a", "b", "c", "d"] [0, 1, 2, 3] [3, 2, 1, 0]
    = .ok (["d", "b", "c", "a"], [3, 1, 2, 0]) := by decide +kernel

/-- **C03 (c), the limit of the guarantee.** There is a lawful generator, a frame and a cap at least as
large as the number of distinct hours for which an hour present in the data loses all of its rows.
(So the conditional error distribution silently falls back to the pooled one.) -/
theorem C03_hour_can_vanish :
    ∃ (R : Rng Unit) (hour : Nat → Nat) (idx : List Nat) (m : Nat), R.Lawful ∧
      (npUnique (idx.map hour)).length ≤ m ∧ m < idx.length ∧
      ∃ h, 0 < availableAtHour hour idx h ∧
        ∃ pos ys, stratified hour R () idx idx idx m = .ok (ys, ys) ∧ RowsAt pos idx ys ∧
          keptAtHour hour idx pos h = 0 := by
  refine ⟨firstRng, fun i => i / 2, [0, 1, 2, 3, 4], 3, firstRng_lawful, by decide +kernel,
    by decide, 2, by decide, [0, 1, 2], [0, 1, 2], by decide +kernel, by simp [RowsAt], by decide⟩

end PyF.Subsample

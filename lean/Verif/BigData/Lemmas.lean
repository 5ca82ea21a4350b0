import Verif.BigData.Model
import Mathlib.Tactic.Ring
import Mathlib.Tactic.Linarith
import Mathlib.Order.Monotone.Basic

namespace PyF.BigData

open PyF

theorem takeRows_range' {α : Type*} (xs : List α) (a k : Nat) (h : a + k ≤ xs.length) : takeRows xs (List.range' a k) = .ok ((xs.drop a).take k) := by
  rw [takeRows_ok_iff]
  apply List.ext_getElem?
  intro i
  rw [List.getElem?_map, List.getElem?_map, List.getElem?_take, List.getElem?_drop]
  by_cases hi : i < k
  · rw [List.getElem?_range' hi, if_pos hi]
    have : a + 1 * i < xs.length := by omega
    simp [List.getElem?_eq_getElem (show a + i < xs.length by omega)]
  · rw [if_neg hi, List.getElem?_eq_none (by simpa using hi)]
    rfl

theorem seg_ok {α : Type*} (xs : List α) {a b : Nat} (hab : a ≤ b) (hb : b ≤ xs.length) : seg xs a b = .ok ((xs.drop a).take (b - a)) :=
  takeRows_range' xs a (b - a) (by omega)

theorem splitLoop_ok {α : Type*} (pts : Nat → Nat) (hm : Monotone pts) (xs : List α) (ss : List Nat) (hs : ∀ s ∈ ss, pts (s + 1) ≤ xs.length) :
    splitLoop pts xs ss = .ok (ss.map (fun s => (xs.drop (pts s)).take (pts (s + 1) - pts s))) := by
  induction ss with
  | nil => rfl
  | cons s ss ih =>
    unfold splitLoop
    rw [seg_ok xs (hm (by omega)) (hs s (by simp)), ih (fun t ht => hs t (by simp [ht]))]
    rfl

theorem flatten_pieces {α : Type*} (pts : Nat → Nat) (hm : Monotone pts) (h0 : pts 0 = 0) (xs : List α) (n : Nat) :
    ((List.range n).map (fun s => (xs.drop (pts s)).take (pts (s + 1) - pts s))).flatten = xs.take (pts n) := by
  induction n with
  | zero => simp [h0]
  | succ n ih =>
    rw [List.range_succ, List.map_append, List.flatten_append, ih]
    simp only [List.map_cons, List.map_nil, List.flatten_cons, List.flatten_nil, List.append_nil]
    have := hm (show n ≤ n + 1 by omega)
    rw [show pts (n + 1) = pts n + (pts (n + 1) - pts n) by omega, List.take_add]
    simp

theorem point_mono (N n : Nat) : Monotone (point N n) := fun _ _ h => Nat.div_le_div_right (Nat.mul_le_mul_right N h)

theorem point_zero (N n : Nat) : point N n 0 = 0 := by simp [point]

theorem point_last (N n : Nat) (hn : 0 < n) : point N n n = N := by unfold point; exact Nat.mul_div_cancel_left N hn

theorem point_le (N n s : Nat) (hn : 0 < n) (hs : s ≤ n) : point N n s ≤ N := by
  have := point_mono N n hs
  rwa [point_last N n hn] at this

theorem point_step (N n s : Nat) (hn : 0 < n) : point N n (s + 1) - point N n s = N / n ∨ point N n (s + 1) - point N n s = N / n + 1 := by
  unfold point
  rw [show (s + 1) * N = s * N + N by ring]
  have ha := Nat.div_add_mod (s * N) n
  have hb := Nat.div_add_mod N n
  have hma := Nat.mod_lt (s * N) hn
  have hmb := Nat.mod_lt N hn
  have e : s * N + N = n * (s * N / n + N / n) + (s * N % n + N % n) := by rw [Nat.mul_add]; omega
  rw [e, Nat.mul_add_div hn]
  by_cases hc : s * N % n + N % n < n
  · rw [Nat.div_eq_of_lt hc, Nat.add_zero, Nat.add_sub_cancel_left]; left; rfl
  · have : (s * N % n + N % n) / n = 1 := by
      apply Nat.div_eq_of_lt_le <;> omega
    rw [this, Nat.add_assoc, Nat.add_sub_cancel_left]; right; rfl

theorem mapM_ok {α β : Type*} (f : α → Except PyErr β) (g : α → β) (l : List α) (h : ∀ a ∈ l, f a = .ok (g a)) : l.mapM f = .ok (l.map g) := by
  induction l with
  | nil => rfl
  | cons a l ih =>
    rw [List.mapM_cons, h a (by simp), ih (fun b hb => h b (by simp [hb]))]
    rfl

end PyF.BigData

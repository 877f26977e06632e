import Verif.Props.Reader

/-!
# Fields of some bits, packed into bytes
-/

namespace Hachoir.Props
open Hachoir Hachoir.Stream Hachoir.Field Hachoir.Formats Spec

/-- Values of these widths after each other, the first in the highest bits. -/
def joinBE : List Nat → List Nat → Nat
  | w :: ws, v :: vs => v % 2 ^ w * 2 ^ ws.sum + joinBE ws vs
  | _, _ => 0

/-- Values of these widths after each other, the first in the lowest bits. -/
def joinLE : List Nat → List Nat → Nat
  | w :: ws, v :: vs => v % 2 ^ w + 2 ^ w * joinLE ws vs
  | _, _ => 0

/-- Each value has room in its width. -/
def Fit : List Nat → List Nat → Prop
  | [], [] => True
  | w :: ws, v :: vs => v < 2 ^ w ∧ Fit ws vs
  | _, _ => False

theorem joinBE_lt : ∀ (ws vs : List Nat), joinBE ws vs < 2 ^ ws.sum
  | [], vs => by rw [joinBE]; exact Nat.two_pow_pos _; simp
  | w :: ws, [] => by rw [joinBE]; exact Nat.two_pow_pos _; simp
  | w :: ws, v :: vs => by
    rw [joinBE, List.sum_cons, Nat.pow_add]
    have h1 := joinBE_lt ws vs
    have h2 : v % 2 ^ w + 1 ≤ 2 ^ w := Nat.mod_lt _ (Nat.two_pow_pos w)
    have := Nat.mul_le_mul_right (2 ^ ws.sum) h2
    rw [Nat.add_mul] at this
    omega

theorem splitBE_congr : ∀ (ws : List Nat) (a b : Nat), splitBE ws (a * 2 ^ ws.sum + b) = splitBE ws b
  | [], _, _ => rfl
  | w :: ws, a, b => by
    have e : a * 2 ^ (w :: ws).sum = a * 2 ^ w * 2 ^ ws.sum := by rw [List.sum_cons, Nat.pow_add, Nat.mul_assoc]
    rw [splitBE, splitBE, e, splitBE_congr ws (a * 2 ^ w) b, Nat.add_comm (a * 2 ^ w * 2 ^ ws.sum) b, Nat.add_mul_div_right _ _ (Nat.two_pow_pos _),
      Nat.add_mul_mod_self_right]

theorem split_joinBE : ∀ (ws vs : List Nat), Fit ws vs → splitBE ws (joinBE ws vs) = vs
  | [], [], _ => rfl
  | w :: ws, v :: vs, h => by
    rw [joinBE, splitBE, splitBE_congr, split_joinBE ws vs h.2, Nat.add_comm, Nat.add_mul_div_right _ _ (Nat.two_pow_pos _),
      Nat.div_eq_of_lt (joinBE_lt ws vs), Nat.zero_add, Nat.mod_mod, Nat.mod_eq_of_lt h.1]
  | [], _ :: _, h => h.elim
  | _ :: _, [], h => h.elim

theorem joinLE_lt : ∀ (ws vs : List Nat), joinLE ws vs < 2 ^ ws.sum
  | [], vs => by rw [joinLE]; exact Nat.two_pow_pos _; simp
  | w :: ws, [] => by rw [joinLE]; exact Nat.two_pow_pos _; simp
  | w :: ws, v :: vs => by
    rw [joinLE, List.sum_cons, Nat.pow_add]
    have h1 : joinLE ws vs + 1 ≤ 2 ^ ws.sum := joinLE_lt ws vs
    have h2 := Nat.mod_lt v (Nat.two_pow_pos w)
    have := Nat.mul_le_mul_left (2 ^ w) h1
    rw [Nat.mul_add] at this
    omega

theorem split_joinLE : ∀ (ws vs : List Nat), Fit ws vs → splitLE ws (joinLE ws vs) = vs
  | [], [], _ => rfl
  | w :: ws, v :: vs, h => by
    have e1 : (v % 2 ^ w + 2 ^ w * joinLE ws vs) % 2 ^ w = v := by rw [Nat.add_mul_mod_self_left, Nat.mod_mod, Nat.mod_eq_of_lt h.1]
    have e2 : (v % 2 ^ w + 2 ^ w * joinLE ws vs) / 2 ^ w = joinLE ws vs := by
      rw [Nat.add_mul_div_left _ _ (Nat.two_pow_pos w), Nat.div_eq_of_lt (Nat.mod_lt _ (Nat.two_pow_pos w)), Nat.zero_add]
    rw [joinLE, splitLE, e1, e2, split_joinLE ws vs h.2]
  | [], _ :: _, h => h.elim
  | _ :: _, [], h => h.elim

theorem pow_256 (n : Nat) : 2 ^ (8 * n) = 256 ^ n := by rw [Nat.pow_mul]

theorem reads_packed_be (n : Nat) (ws vs : List Nat) (hn : 0 < n) (hw : ws.sum = 8 * n) (h : Fit ws vs) :
    Reads (Rd.bits .big ws) vs (beBytes n (joinBE ws vs)) := by
  have := reads_bits_be ws (beBytes n (joinBE ws vs)) (by rw [beBytes_length]; exact hn) (by rw [beBytes_length]; exact hw)
  have e : ofBytesBE (beBytes n (joinBE ws vs)) = joinBE ws vs := by
    have hb := joinBE_lt ws vs
    rw [hw, pow_256] at hb
    exact (beBytes_big n _ hb).2
  rwa [e, split_joinBE ws vs h] at this

theorem reads_packed_le (n : Nat) (ws vs : List Nat) (hn : 0 < n) (hw : ws.sum = 8 * n) (h : Fit ws vs) :
    Reads (Rd.bits .little ws) vs (leBytes n (joinLE ws vs)) := by
  have := reads_bits_le ws (leBytes n (joinLE ws vs)) (by rw [leBytes_length]; exact hn) (by rw [leBytes_length]; exact hw)
  have hb := joinLE_lt ws vs
  rw [hw, pow_256] at hb
  rwa [(leBytes_spec n _).2 hb, split_joinLE ws vs h] at this

end Hachoir.Props

import Verif.Props.Mbr
import Verif.Props.JavaPool
import Verif.Props.Float

/-!
# Lemmas to read numbers of records
-/

namespace Hachoir.Props
open Hachoir Hachoir.Stream Hachoir.Formats Spec

/-- A number in `n` bytes, highest byte first. -/
def beBytes (n v : Nat) : Bytes := (leBytes n v).reverse

theorem beBytes_length (n v : Nat) : (beBytes n v).length = n := by
  rw [beBytes, List.length_reverse, (leBytes_spec n v).1]

theorem leBytes_length (n v : Nat) : (leBytes n v).length = n := (leBytes_spec n v).1

theorem beBytes_big (n v : Nat) (h : v < 256 ^ n) : Big n v (beBytes n v) :=
  ⟨beBytes_length n v, by rw [beBytes, ofBytesBE_reverse, (leBytes_spec n v).2 h]⟩

/-- The parts of a record. -/
theorem record_part {data : Bytes} {k : Nat} (parts : List Bytes) (i : Nat) (x : Bytes) (hx : parts[i]? = some x) (j : Nat)
    (hj : j = k + (parts.take i).flatten.length) (hp : parts.flatten <+: data.drop k) : x <+: data.drop j := by
  subst hj
  have e : parts = parts.take i ++ (x :: parts.drop (i + 1)) := by
    obtain ⟨hi, rfl⟩ := List.getElem?_eq_some_iff.1 hx
    rw [List.cons_getElem_drop_succ, List.take_append_drop]
  rw [e, List.flatten_append, List.flatten_cons] at hp
  exact prefix_left (drop_prefix hp)

theorem read_be (data : Bytes) (s : InputStream) (hs : stringInputStream data = .ok s) (n k v : Nat) (hn : 0 < n)
    (hv : v < 256 ^ n) (hp : beBytes n v <+: data.drop k) (m : Nat) (hm : m = 8 * n) (ad : Int) (had : ad = ((8 * k : Nat) : Int)) :
    readBits s ad m .big = .ok v :=
  read_big data s hs k n v _ (beBytes_big n v hv) hn hp m hm ad had

theorem read_le (data : Bytes) (s : InputStream) (hs : stringInputStream data = .ok s) (n k v : Nat) (hn : 0 < n)
    (hv : v < 256 ^ n) (hp : leBytes n v <+: data.drop k) (m : Nat) (hm : m = 8 * n) (ad : Int) (had : ad = ((8 * k : Nat) : Int)) :
    readBits s ad m .little = .ok v := by
  subst had hm
  obtain ⟨hl, hle⟩ := leBytes_spec n v
  have e : (256 : Nat) ^ n = 2 ^ (8 * n) := by rw [Nat.pow_mul]
  rw [readBits_in data s hs k 0 (8 * n) _ hp (by rw [hl]; omega) (by rw [hl]; omega) ((8 * k : Nat) : Int) rfl,
    hle hv, Nat.pow_zero, Nat.div_one, Nat.mod_eq_of_lt (by rw [← e]; exact hv)]

theorem read_byte (data : Bytes) (s : InputStream) (hs : stringInputStream data = .ok s) (k : Nat) (b : UInt8) (e : Endian)
    (he : e ≠ .middle) (hp : [b] <+: data.drop k) (ad : Int) (had : ad = ((8 * k : Nat) : Int)) : readBits s ad 8 e = .ok b.toNat := by
  cases e with
  | big => exact read_big data s hs k 1 _ [b] (big_byte b) (by omega) hp 8 rfl ad had
  | little =>
    rw [readBits_in data s hs k 0 8 _ hp (by simp) (by simp) ad (by rw [had]; rfl)]
    simp only [ofBytesLE, Nat.pow_zero, Nat.div_one]
    exact congrArg Except.ok (by have := b.toNat_lt; omega)
  | middle => exact absurd rfl he

end Hachoir.Props

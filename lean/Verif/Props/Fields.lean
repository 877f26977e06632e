import Verif.Formats.Fields
import Verif.Props.Exif

/-!
# Integer fields one behind the other: what they are read as
-/

set_option linter.unusedVariables false

namespace Hachoir.Props
open Hachoir Hachoir.Stream Hachoir.Formats Spec

/-- The bytes of integers given by sign and number of bytes. -/
inductive FieldsBytes (e : Endian) : List (Bool × Nat) → List Int → Bytes → Prop where
  | nil : FieldsBytes e [] [] []
  | unsigned (n v : Nat) (fs : List (Bool × Nat)) (vs : List Int) (a b : Bytes) (h0 : 0 < n) (ha : a.length = n)
      (hv : numberIn e a = some v) (hb : FieldsBytes e fs vs b) : FieldsBytes e ((false, n) :: fs) (v :: vs) (a ++ b)
  | signed (n v : Nat) (fs : List (Bool × Nat)) (vs : List Int) (a b : Bytes) (h0 : 0 < n) (ha : a.length = n)
      (hv : numberIn e a = some v) (hb : FieldsBytes e fs vs b) :
      FieldsBytes e ((true, n) :: fs) (twosComplement (8 * n) v :: vs) (a ++ b)

/-- Bytes to bits. -/
def inBits (fs : List (Bool × Nat)) : List (Bool × Nat) := fs.map fun p => (p.1, 8 * p.2)

theorem readFields_bytes (data : Bytes) (s : InputStream) (hs : stringInputStream data = .ok s) (e : Endian)
    {fs : List (Bool × Nat)} {vs : List Int} {bs : Bytes} (h : FieldsBytes e fs vs bs) :
    ∀ k : Nat, bs <+: data.drop k → ∀ ad : Int, ad = (8 * k : Nat) → readFields s e ad (inBits fs) = .ok vs := by
  induction h with
  | nil => intro k _ ad _; rfl
  | unsigned n v fs vs a b h0 ha hv hb ih =>
    intro k hp ad had
    have hp2 := drop_prefix hp
    rw [ha] at hp2
    have r := read_unsigned data s hs e k v a (ne_nil_of_length ha h0) hv (prefix_left hp) (8 * n) (by rw [ha]) ad had
    simp only [inBits, List.map_cons, readFields, r]
    rw [show (fs.map fun p => (p.1, 8 * p.2)) = inBits fs from rfl, ih (k + n) hp2 _ (by subst had; push_cast; ring)]
  | signed n v fs vs a b h0 ha hv hb ih =>
    intro k hp ad had
    have hp2 := drop_prefix hp
    rw [ha] at hp2
    have r := read_signed data s hs e k v a (ne_nil_of_length ha h0) hv (prefix_left hp) (8 * n) (by rw [ha]) ad had
    simp only [inBits, List.map_cons, readFields, r]
    rw [show (fs.map fun p => (p.1, 8 * p.2)) = inBits fs from rfl, ih (k + n) hp2 _ (by subst had; push_cast; ring)]

theorem fieldsBytes_length {e : Endian} {fs : List (Bool × Nat)} {vs : List Int} {bs : Bytes} (h : FieldsBytes e fs vs bs) :
    bs.length = (fs.map Prod.snd).sum := by
  induction h with
  | nil => rfl
  | unsigned n v fs vs a b h0 ha hv hb ih => rw [List.length_append, ih, ha]; rfl
  | signed n v fs vs a b h0 ha hv hb ih => rw [List.length_append, ih, ha]; rfl

theorem fieldsBytes_values {e : Endian} {fs : List (Bool × Nat)} {vs : List Int} {bs : Bytes} (h : FieldsBytes e fs vs bs) :
    vs.length = fs.length := by
  induction h with
  | nil => rfl
  | unsigned n v fs vs a b h0 ha hv hb ih => rw [List.length_cons, List.length_cons, ih]
  | signed n v fs vs a b h0 ha hv hb ih => rw [List.length_cons, List.length_cons, ih]

theorem fieldsSize_inBits (fs : List (Bool × Nat)) : fieldsSize (inBits fs) = 8 * (fs.map Prod.snd).sum := by
  unfold fieldsSize inBits
  induction fs with
  | nil => rfl
  | cons p fs ih =>
    simp only [List.map_cons, List.sum_cons] at ih ⊢
    omega

end Hachoir.Props

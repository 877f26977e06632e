import Verif.Formats.Python
import Verif.Props.Reader

/-!
# Compiled Python modules

What Python writes with `marshal`, and the header of `.pyc` files, per version.
-/

namespace Hachoir.Props
open Hachoir Hachoir.Stream Hachoir.Field Hachoir.Formats Hachoir.Formats.Python Spec

/-! ## What `marshal` writes -/

/-- The character of an object and its flag. -/
def pyHead (code : Nat) (flag : Bool) : Bytes := [UInt8.ofNat (code + if flag then 128 else 0)]

def signedBytes (n : Nat) (v : Int) : Bytes := leBytes n (v % (256 ^ n : Nat)).toNat

/-- Bytes of the length of a text: texts `z` and `Z` have a short one. -/
def textWidth (code : Nat) : Nat := if code = 122 ∨ code = 90 then 1 else 4

/-- Bytes of the length of a sequence: the tuple `)` has a short one. -/
def seqWidth (code : Nat) : Nat := if code = 41 then 1 else 4

/-- The numbers of a code object in every version of Python: the number of bytes of each. -/
def spNumbers (version : Nat) : List Nat :=
  let width := if version < 0x2030000 then 2 else 4
  List.replicate ((if version < 0x3000000 then 4 else 5) + (if version < 0x3080000 then 0 else 1) - (if version < 0x30B0000 then 0 else 1)) width

/-- How many objects follow, up to the line number: code, constants, names, local names (three, from 2.1 on; two, from 3.11 on), file, name and,
from 3.11 on, qualified name. -/
def spObjects (version : Nat) : Nat := if version < 0x2010000 then 6 else 8

/-- How many objects are behind the line number. -/
def spLast (version : Nat) : Nat := if version < 0x30B0000 then 1 else 2

mutual
def pyBytes (version : Nat) : PyObj → Bytes
  | .atom c f => pyHead c f
  | .num c f v => pyHead c f ++ signedBytes (if c = 105 then 4 else 8) v
  | .float f v => pyHead 102 f ++ (UInt8.ofNat v.length :: v)
  | .double f v => pyHead 103 f ++ leBytes 8 v
  | .complex f re im => pyHead 120 f ++ ((UInt8.ofNat re.length :: re) ++ (UInt8.ofNat im.length :: im))
  | .doubles f re im => pyHead 121 f ++ (leBytes 8 re ++ leBytes 8 im)
  | .long f count digits => pyHead 108 f ++ (signedBytes 4 count ++ digits.flatMap (leBytes 2))
  | .text c f v => pyHead c f ++ (leBytes (textWidth c) v.length ++ v)
  | .textRef f n => pyHead 82 f ++ leBytes 4 n
  | .ref f n => pyHead 114 f ++ leBytes 4 n
  | .seq c f items => pyHead c f ++ (leBytes (seqWidth c) items.length ++ pyAllBytes version items)
  | .dict c f items => pyHead c f ++ pyAllBytes version items
  | .slice f a b c => pyHead 58 f ++ (pyBytes version a ++ (pyBytes version b ++ pyBytes version c))
  | .code f nums objs line last => pyHead 99 f ++ (((spNumbers version).zip nums).flatMap (fun p => leBytes p.1 p.2) ++ (pyAllBytes version objs ++
      (leBytes (if version < 0x2030000 then 2 else 4) line ++ pyAllBytes version last)))

def pyAllBytes (version : Nat) : List PyObj → Bytes
  | [] => []
  | o :: os => pyBytes version o ++ pyAllBytes version os
end

/-- Keys that are not the null object, each with a value, and then the null object. -/
def DictShape : List PyObj → Prop
  | [k] => k.char = 48
  | k :: _ :: is => k.char ≠ 48 ∧ DictShape is
  | [] => False

/-- A table of line numbers has pairs of bytes. -/
def Paired : PyObj → Prop
  | .text c _ v => c = 115 ∨ c = 116 ∨ c = 117 → v.length % 2 = 0
  | _ => True

mutual
/-- What can be written; the ASCII texts are not too long. -/
def PyGood (version : Nat) : PyObj → Prop
  | .atom c _ => c = 48 ∨ c = 78 ∨ c = 70 ∨ c = 84 ∨ c = 83 ∨ c = 46 ∨ c = 63
  | .num c _ v => (c = 105 ∧ -(2 ^ 31) ≤ v ∧ v < 2 ^ 31) ∨ (c = 73 ∧ -(2 ^ 63) ≤ v ∧ v < 2 ^ 63)
  | .float _ v => v.length < 256
  | .double _ v => v < 2 ^ 64
  | .complex _ re im => re.length < 256 ∧ im.length < 256
  | .doubles _ re im => re < 2 ^ 64 ∧ im < 2 ^ 64
  | .long _ count digits => count.natAbs = digits.length ∧ digits.length < 2 ^ 31 ∧ ∀ d ∈ digits, d < 2 ^ 16
  | .text c _ v => ((c = 115 ∨ c = 116 ∨ c = 117) ∧ v.length < 2 ^ 32) ∨ ((c = 97 ∨ c = 65) ∧ v.length ≤ 65535) ∨ ((c = 122 ∨ c = 90) ∧ v.length < 256)
  | .textRef _ n => n < 2 ^ 32
  | .ref _ n => n < 2 ^ 32
  | .seq c _ items => (((c = 40 ∨ c = 91 ∨ c = 60 ∨ c = 62) ∧ items.length < 2 ^ 32) ∨ (c = 41 ∧ items.length < 256)) ∧ PyAllGood version items
  | .dict c _ items => (c = 123 ∨ c = 125) ∧ DictShape items ∧ PyAllGood version items
  | .slice _ a b c => PyGood version a ∧ PyGood version b ∧ PyGood version c
  | .code _ nums objs line last => nums.length = (spNumbers version).length ∧ (∀ p ∈ (spNumbers version).zip nums, p.2 < 256 ^ p.1) ∧
      objs.length = spObjects version ∧ PyAllGood version objs ∧ line < (if version < 0x2030000 then 2 ^ 16 else 2 ^ 32) ∧
      last.length = spLast version ∧ PyAllGood version last ∧ (version < 0x30A0000 → ∀ o ∈ last, Paired o)

def PyAllGood (version : Nat) : List PyObj → Prop
  | [] => True
  | o :: os => PyGood version o ∧ PyAllGood version os
end

mutual
def pySize : PyObj → Nat
  | .seq _ _ items => pySizes items + 1
  | .dict _ _ items => pySizes items + 1
  | .slice _ a b c => pySize a + pySize b + pySize c + 1
  | .code _ _ objs _ last => pySizes objs + pySizes last + 1
  | _ => 1

/-- Sum, and one for each. -/
def pySizes : List PyObj → Nat
  | [] => 0
  | o :: os => pySize o + 1 + pySizes os
end

theorem py_all_bytes (version : Nat) : ∀ os, pyAllBytes version os = os.flatMap (pyBytes version)
  | [] => rfl
  | o :: os => by rw [pyAllBytes, List.flatMap_cons, py_all_bytes version os]

theorem py_all_good (version : Nat) : ∀ os, PyAllGood version os → ∀ o ∈ os, PyGood version o
  | [], _, _, h => by simp at h
  | x :: os, hg, o, h => by
    rcases List.mem_cons.1 h with rfl | h
    · exact hg.1
    · exact py_all_good version os hg.2 o h

theorem py_sizes_mem : ∀ (os : List PyObj), ∀ o ∈ os, pySize o < pySizes os
  | [], _, h => by simp at h
  | x :: os, o, h => by
    rcases List.mem_cons.1 h with rfl | h
    · rw [pySizes]; omega
    · have := py_sizes_mem os o h
      rw [pySizes]; omega

theorem py_sizes_length : ∀ (os : List PyObj), os.length ≤ pySizes os
  | [] => by simp
  | x :: os => by
    have := py_sizes_length os
    rw [pySizes, List.length_cons]; omega

theorem reads_head (code : Nat) (hc : code < 128) (flag : Bool) : Reads head (code, flag) (pyHead code flag) := by
  have r := reads_bits_le [7, 1] (pyHead code flag) (by simp [pyHead]) rfl
  refine (Reads.map (f := fun bits : List Nat => (bits.getD 0 0, bits.getD 1 0 != 0)) r).of_eq ?_ rfl
  have e : ofBytesLE (pyHead code flag) = code + if flag then 128 else 0 := by
    simp only [pyHead, ofBytesLE, UInt8.toNat_ofNat']
    cases flag <;> simp <;> omega
  rw [e]
  cases flag
  · simp [splitLE]
    omega
  · simp [splitLE]
    omega

theorem reads_signed4 (v : Int) (h : -(2 ^ 31) ≤ v ∧ v < 2 ^ 31) : Reads (Rd.signed 4 .little) v (signedBytes 4 v) :=
  reads_signed_le 4 v (by omega) (by norm_num; omega) (by norm_num; omega)

theorem reads_signed8 (v : Int) (h : -(2 ^ 63) ≤ v ∧ v < 2 ^ 63) : Reads (Rd.signed 8 .little) v (signedBytes 8 v) :=
  reads_signed_le 8 v (by omega) (by norm_num; omega) (by norm_num; omega)

theorem reads_raw_any (b : Bytes) : Reads (if b.length = 0 then pure [] else Rd.raw b.length : Rd Bytes) b b := by
  by_cases h : b = []
  · subst h
    exact reads_pure _
  · rw [if_neg (by have := List.length_pos_of_ne_nil h; omega)]
    exact reads_raw b h

/-- Pairs of bytes. -/
theorem reads_pairs : ∀ (n : Nat) (b : Bytes), b.length = 2 * n → Reads (do
    let pairs ← Rd.times (do
      let a ← Rd.int 1 .little
      let b ← Rd.int 1 .little
      pure [UInt8.ofNat a, UInt8.ofNat b] : Rd Bytes) n
    pure pairs.flatten) b b := by
  intro n b hb
  have key : ∀ (n : Nat) (b : Bytes), b.length = 2 * n → ∃ ps : List (UInt8 × UInt8), ps.length = n ∧ b = ps.flatMap fun p => [p.1, p.2] := by
    intro n
    induction n with
    | zero => intro b hb; exact ⟨[], rfl, by simpa using hb⟩
    | succ n ih =>
      intro b hb
      match b with
      | x :: y :: b =>
        obtain ⟨ps, h1, h2⟩ := ih b (by simp at hb; omega)
        exact ⟨(x, y) :: ps, by simp [h1], by simp [h2]⟩
      | [] => simp at hb
      | [x] => simp at hb; omega
  obtain ⟨ps, h1, h2⟩ := key n b hb
  subst h1 h2
  have r := reads_times_map (do
      let a ← Rd.int 1 .little
      let b ← Rd.int 1 .little
      pure [UInt8.ofNat a, UInt8.ofNat b] : Rd Bytes) (fun p : UInt8 × UInt8 => [p.1, p.2]) (fun p => [p.1, p.2]) ps fun p _ => by
    refine (Reads.bind (w := [UInt8.ofNat p.1.toNat, UInt8.ofNat p.2.toNat]) (ys := [p.2]) (reads_byte p.1 .little (by simp)) ?_).of_eq (by simp) rfl
    exact Reads.map (f := fun y => [UInt8.ofNat p.1.toNat, UInt8.ofNat y]) (reads_byte p.2 .little (by simp))
  refine (Reads.map (f := List.flatten) r).of_eq ?_ rfl
  rw [List.flatMap_def]

theorem reads_string (lnotab : Bool) (b : Bytes) (hb : b.length < 2 ^ 32) (hp : lnotab = true → b.length % 2 = 0) :
    Reads (string lnotab) b (leBytes 4 b.length ++ b) := by
  refine Reads.bind (reads_int_le 4 b.length (by omega) (by simpa using hb)) ?_
  cases lnotab with
  | false =>
    rw [if_neg (by decide)]
    exact reads_raw_any b
  | true =>
    rw [if_pos rfl]
    have := hp rfl
    exact reads_pairs _ b (by omega)

theorem reads_ascii (width : Nat) (hw : 0 < width) (b : Bytes) (hb : b.length < 256 ^ width) (hl : b.length ≤ 65535) :
    Reads (ascii width) b (leBytes width b.length ++ b) := by
  refine Reads.bind (reads_int_le width b.length hw hb) ?_
  by_cases h : b = []
  · subst h
    exact reads_pure _
  · have := List.length_pos_of_ne_nil h
    rw [if_neg (by omega)]
    exact reads_fixed .little .eightBit (by decide) b.length b rfl (by omega)

theorem reads_dict (obj : Rd PyObj) (enc : PyObj → Bytes) : ∀ (is : List PyObj) (fuel : Nat), is.length < fuel → DictShape is →
    (∀ o ∈ is, Reads obj o (enc o)) → Reads (dictItems obj fuel) is (is.flatMap enc)
  | [], _, _, h, _ => h.elim
  | [k], fuel + 1, _, h, hr => by
    have hk : k.char = 48 := h
    refine (Reads.bind (ys := []) (w := [k]) (hr k (by simp)) ?_).of_eq rfl (by simp)
    rw [if_pos hk]
    exact reads_pure _
  | k :: v :: is, fuel + 1, hf, h, hr => by
    have hk : k.char ≠ 48 ∧ DictShape is := by
      cases is with
      | nil => exact h
      | cons => exact h
    rw [List.flatMap_cons, List.flatMap_cons]
    refine Reads.bind (hr k (by simp)) ?_
    rw [if_neg hk.1]
    refine Reads.bind (hr v (by simp)) (Reads.map (reads_dict obj enc is fuel (by simp at hf; omega) hk.2 fun o ho => hr o (by simp [ho])))

/-! ## Code in every version -/

set_option linter.unusedSimpArgs false in
/-- **C128**: the numbers, objects and line number of code are those of that version of Python, except for 2.0, where two objects too many are
expected. -/
theorem C128_layout_partial (version : Nat) (h : version < 0x2000000 ∨ 0x2010000 ≤ version) :
    (codeNumbers version).map (·.2) = spNumbers version ∧ (codeObjects version).length = spObjects version ∧
    lineBytes version = (if version < 0x2030000 then 2 else 4) ∧ (codeLast version).length = spLast version ∧
    (∀ name ∈ codeLast version, name = "lnotab" → version < 0x30A0000) := by
  have hcases : version < 0x2000000 ∨ (0x2010000 ≤ version ∧ version < 0x2030000) ∨ (0x2030000 ≤ version ∧ version < 0x3000000) ∨ (0x3000000 ≤ version ∧ version < 0x3080000) ∨ (0x3080000 ≤ version ∧ version < 0x30A0000) ∨ (0x30A0000 ≤ version ∧ version < 0x30B0000) ∨ 0x30B0000 ≤ version := by omega
  rcases hcases with hv | hv | hv | hv | hv | hv | hv
  · simp [codeNumbers, spNumbers, codeObjects, spObjects, lineBytes, codeLast, spLast, show ¬ 0x2000000 ≤ version by omega, show version < 0x2000000 by omega, show ¬ 0x2010000 ≤ version by omega, show version < 0x2010000 by omega, show ¬ 0x2030000 ≤ version by omega, show version < 0x2030000 by omega, show ¬ 0x3000000 ≤ version by omega, show version < 0x3000000 by omega, show ¬ 0x3080000 ≤ version by omega, show version < 0x3080000 by omega, show ¬ 0x30A0000 ≤ version by omega, show version < 0x30A0000 by omega, show ¬ 0x30B0000 ≤ version by omega, show version < 0x30B0000 by omega]
  · simp [codeNumbers, spNumbers, codeObjects, spObjects, lineBytes, codeLast, spLast, show 0x2000000 ≤ version by omega, show ¬ version < 0x2000000 by omega, show 0x2010000 ≤ version by omega, show ¬ version < 0x2010000 by omega, show ¬ 0x2030000 ≤ version by omega, show version < 0x2030000 by omega, show ¬ 0x3000000 ≤ version by omega, show version < 0x3000000 by omega, show ¬ 0x3080000 ≤ version by omega, show version < 0x3080000 by omega, show ¬ 0x30A0000 ≤ version by omega, show version < 0x30A0000 by omega, show ¬ 0x30B0000 ≤ version by omega, show version < 0x30B0000 by omega]
  · simp [codeNumbers, spNumbers, codeObjects, spObjects, lineBytes, codeLast, spLast, show 0x2000000 ≤ version by omega, show ¬ version < 0x2000000 by omega, show 0x2010000 ≤ version by omega, show ¬ version < 0x2010000 by omega, show 0x2030000 ≤ version by omega, show ¬ version < 0x2030000 by omega, show ¬ 0x3000000 ≤ version by omega, show version < 0x3000000 by omega, show ¬ 0x3080000 ≤ version by omega, show version < 0x3080000 by omega, show ¬ 0x30A0000 ≤ version by omega, show version < 0x30A0000 by omega, show ¬ 0x30B0000 ≤ version by omega, show version < 0x30B0000 by omega]
  · simp [codeNumbers, spNumbers, codeObjects, spObjects, lineBytes, codeLast, spLast, show 0x2000000 ≤ version by omega, show ¬ version < 0x2000000 by omega, show 0x2010000 ≤ version by omega, show ¬ version < 0x2010000 by omega, show 0x2030000 ≤ version by omega, show ¬ version < 0x2030000 by omega, show 0x3000000 ≤ version by omega, show ¬ version < 0x3000000 by omega, show ¬ 0x3080000 ≤ version by omega, show version < 0x3080000 by omega, show ¬ 0x30A0000 ≤ version by omega, show version < 0x30A0000 by omega, show ¬ 0x30B0000 ≤ version by omega, show version < 0x30B0000 by omega]
  · simp [codeNumbers, spNumbers, codeObjects, spObjects, lineBytes, codeLast, spLast, show 0x2000000 ≤ version by omega, show ¬ version < 0x2000000 by omega, show 0x2010000 ≤ version by omega, show ¬ version < 0x2010000 by omega, show 0x2030000 ≤ version by omega, show ¬ version < 0x2030000 by omega, show 0x3000000 ≤ version by omega, show ¬ version < 0x3000000 by omega, show 0x3080000 ≤ version by omega, show ¬ version < 0x3080000 by omega, show ¬ 0x30A0000 ≤ version by omega, show version < 0x30A0000 by omega, show ¬ 0x30B0000 ≤ version by omega, show version < 0x30B0000 by omega]
  · simp [codeNumbers, spNumbers, codeObjects, spObjects, lineBytes, codeLast, spLast, show 0x2000000 ≤ version by omega, show ¬ version < 0x2000000 by omega, show 0x2010000 ≤ version by omega, show ¬ version < 0x2010000 by omega, show 0x2030000 ≤ version by omega, show ¬ version < 0x2030000 by omega, show 0x3000000 ≤ version by omega, show ¬ version < 0x3000000 by omega, show 0x3080000 ≤ version by omega, show ¬ version < 0x3080000 by omega, show 0x30A0000 ≤ version by omega, show ¬ version < 0x30A0000 by omega, show ¬ 0x30B0000 ≤ version by omega, show version < 0x30B0000 by omega]
  · simp [codeNumbers, spNumbers, codeObjects, spObjects, lineBytes, codeLast, spLast, show 0x2000000 ≤ version by omega, show ¬ version < 0x2000000 by omega, show 0x2010000 ≤ version by omega, show ¬ version < 0x2010000 by omega, show 0x2030000 ≤ version by omega, show ¬ version < 0x2030000 by omega, show 0x3000000 ≤ version by omega, show ¬ version < 0x3000000 by omega, show 0x3080000 ≤ version by omega, show ¬ version < 0x3080000 by omega, show 0x30A0000 ≤ version by omega, show ¬ version < 0x30A0000 by omega, show 0x30B0000 ≤ version by omega, show ¬ version < 0x30B0000 by omega]

/-- Violation: a module compiled by Python 2.0. -/
theorem C128_python20 : (codeObjects 0x2000000).length = spObjects 0x2000000 + 2 := by decide

/-! ## Objects -/

/-- **C128**: whatever object `marshal` has written for this version of Python, it is read as it was written. -/
theorem C128_object_partial (version : Nat) (hver : version < 0x2000000 ∨ 0x2010000 ≤ version) : ∀ (fuel : Nat) (lnotab : Bool) (o : PyObj),
    pySize o < fuel → PyGood version o → (lnotab = true → Paired o) → Reads (object version fuel lnotab) o (pyBytes version o)
  | 0, _, _, hf, _, _ => by omega
  | fuel + 1, lnotab, o, hf, hg, hp => by
    have ih : ∀ (b : Bool) (o : PyObj), pySize o < fuel → PyGood version o → (b = true → Paired o) → Reads (object version fuel b) o (pyBytes version o) :=
      fun b o => C128_object_partial version hver fuel b o
    have all : ∀ os : List PyObj, pySizes os ≤ fuel → PyAllGood version os → ∀ o ∈ os, Reads (object version fuel false) o (pyBytes version o) :=
      fun os hs ha o ho => ih false o (by have := py_sizes_mem os o ho; omega) (py_all_good version os ha o ho) (by simp)
    cases o with
    | atom c f =>
      have hg : c = 48 ∨ c = 78 ∨ c = 70 ∨ c = 84 ∨ c = 83 ∨ c = 46 ∨ c = 63 := hg
      refine (Reads.bind (ys := []) (w := PyObj.atom c f) (reads_head c (by omega) f) ?_).of_eq rfl (by simp [pyBytes])
      show Reads (content version (object version fuel) fuel lnotab c f) _ _
      rw [content, if_pos hg]
      exact reads_pure _
    | num c f v =>
      have hg : (c = 105 ∧ -(2 ^ 31) ≤ v ∧ v < 2 ^ 31) ∨ (c = 73 ∧ -(2 ^ 63) ≤ v ∧ v < 2 ^ 63) := hg
      refine Reads.bind (reads_head c (by omega) f) ?_
      show Reads (content version (object version fuel) fuel lnotab c f) _ _
      rcases hg with ⟨rfl, hv⟩ | ⟨rfl, hv⟩
      · exact Reads.map (reads_signed4 v hv)
      · exact Reads.map (reads_signed8 v hv)
    | float f v => exact Reads.bind (reads_head 102 (by omega) f) (Reads.map (reads_pascal8 .little (by simp) .eightBit (by decide) v hg))
    | double f v => exact Reads.bind (reads_head 103 (by omega) f) (Reads.map (reads_int_le 8 v (by omega) hg))
    | complex f re im =>
      refine Reads.bind (reads_head 120 (by omega) f) ?_
      exact Reads.bind (reads_pascal8 .little (by simp) .eightBit (by decide) re hg.1) (Reads.map (reads_pascal8 .little (by simp) .eightBit (by decide) im hg.2))
    | doubles f re im =>
      refine Reads.bind (reads_head 121 (by omega) f) ?_
      exact Reads.bind (reads_int_le 8 re (by omega) hg.1) (Reads.map (reads_int_le 8 im (by omega) hg.2))
    | long f count digits =>
      obtain ⟨h1, h2, h3⟩ := hg
      refine Reads.bind (reads_head 108 (by omega) f) ?_
      refine Reads.bind (reads_signed4 count (by omega)) (Reads.map ?_)
      exact reads_times_n _ (leBytes 2) digits _ h1 fun d hd => reads_int_le 2 d (by omega) (h3 d hd)
    | text c f v =>
      have hg : ((c = 115 ∨ c = 116 ∨ c = 117) ∧ v.length < 2 ^ 32) ∨ ((c = 97 ∨ c = 65) ∧ v.length ≤ 65535) ∨ ((c = 122 ∨ c = 90) ∧ v.length < 256) := hg
      have hp : lnotab = true → (c = 115 ∨ c = 116 ∨ c = 117 → v.length % 2 = 0) := hp
      refine Reads.bind (reads_head c (by omega) f) ?_
      show Reads (content version (object version fuel) fuel lnotab c f) _ _
      rcases hg with ⟨hc, hv⟩ | ⟨hc, hv⟩ | ⟨hc, hv⟩
      · have r := Reads.map (f := PyObj.text c f) (reads_string lnotab v hv fun hl => hp hl hc)
        rcases hc with rfl | rfl | rfl <;> exact r
      · have r := Reads.map (f := PyObj.text c f) (reads_ascii 4 (by omega) v (by omega) hv)
        rcases hc with rfl | rfl <;> exact r
      · have r := Reads.map (f := PyObj.text c f) (reads_ascii 1 (by omega) v (by omega) (by omega))
        rcases hc with rfl | rfl <;> exact r
    | textRef f n => exact Reads.bind (reads_head 82 (by omega) f) (Reads.map (reads_int_le 4 n (by omega) hg))
    | ref f n => exact Reads.bind (reads_head 114 (by omega) f) (Reads.map (reads_int_le 4 n (by omega) hg))
    | seq c f items =>
      obtain ⟨hg, ha⟩ := hg
      rw [pySize] at hf
      refine Reads.bind (reads_head c (by omega) f) ?_
      show Reads (content version (object version fuel) fuel lnotab c f) _ _
      rw [py_all_bytes]
      have rt := reads_times (object version fuel false) (pyBytes version) items (all items (by omega) ha)
      rcases hg with ⟨hc, hl⟩ | ⟨rfl, hl⟩
      · have r := Reads.bind (f := fun n => (do let items ← Rd.times (object version fuel false) n; pure (.seq c f items) : Rd PyObj))
          (reads_int_le 4 items.length (by omega) hl) (Reads.map (f := PyObj.seq c f) rt)
        rcases hc with rfl | rfl | rfl | rfl <;> exact r
      · exact Reads.bind (f := fun n => (do let items ← Rd.times (object version fuel false) n; pure (.seq 41 f items) : Rd PyObj))
          (reads_int_le 1 items.length (by omega) (by omega)) (Reads.map (f := PyObj.seq 41 f) rt)
    | dict c f items =>
      obtain ⟨hc, hs, ha⟩ := hg
      rw [pySize] at hf
      refine Reads.bind (reads_head c (by omega) f) ?_
      show Reads (content version (object version fuel) fuel lnotab c f) _ _
      rw [py_all_bytes]
      have hl := py_sizes_length items
      have r := Reads.map (f := PyObj.dict c f) (reads_dict (object version fuel false) (pyBytes version) items fuel (by omega) hs (all items (by omega) ha))
      rcases hc with rfl | rfl <;> exact r
    | slice f a b c =>
      obtain ⟨h1, h2, h3⟩ := hg
      rw [pySize] at hf
      refine Reads.bind (reads_head 58 (by omega) f) ?_
      exact Reads.bind (ih false a (by omega) h1 (by simp)) (Reads.bind (ih false b (by omega) h2 (by simp)) (Reads.map (ih false c (by omega) h3 (by simp))))
    | code f nums objs line last =>
      obtain ⟨h1, h2, h3, h4, h5, h6, h7, h8⟩ := hg
      rw [pySize] at hf
      obtain ⟨l1, l2, l3, l4, l5⟩ := C128_layout_partial version hver
      refine Reads.bind (reads_head 99 (by omega) f) ?_
      show Reads (codeFields version f (object version fuel)) _ _
      refine Reads.bind (v := nums) ?_ (Reads.bind (v := objs) ?_ (Reads.bind (v := line) ?_ (Reads.map (f := fun l => PyObj.code f nums objs line l) ?_)))
      · have r := reads_each (fun f : String × Nat => Rd.int f.2 .little) (fun p : (String × Nat) × Nat => p.1) (fun p => p.2) (fun p => leBytes p.1.2 p.2)
          ((codeNumbers version).zip nums) fun p hp => by
            have hm : (p.1.2, p.2) ∈ (spNumbers version).zip nums := by
              rw [← l1, List.zip_map_left]
              exact List.mem_map.2 ⟨p, hp, rfl⟩
            refine reads_int_le p.1.2 p.2 ?_ (h2 _ hm)
            have := List.of_mem_zip hm
            have hw := this.1
            simp only [spNumbers, List.mem_replicate] at hw
            by_cases hv : version < 0x2030000
            · rw [if_pos hv] at hw
              omega
            · rw [if_neg hv] at hw
              omega
        have hl : (codeNumbers version).length = nums.length := by rw [h1, ← l1, List.length_map]
        rw [List.map_fst_zip (by omega), List.map_snd_zip (by omega)] at r
        refine r.of_eq rfl ?_
        rw [← l1, List.zip_map_left, List.flatMap_map]
        rfl
      · rw [py_all_bytes]
        exact reads_times_n _ _ objs _ (by omega) (all objs (by omega) h4)
      · rw [l3]
        by_cases hv : version < 0x2030000
        · rw [if_pos hv] at h5 ⊢
          exact reads_int_le 2 line (by omega) h5
        · rw [if_neg hv] at h5 ⊢
          exact reads_int_le 4 line (by omega) h5
      · rw [py_all_bytes]
        have r := reads_each (fun name => object version fuel (name == "lnotab")) (fun p : String × PyObj => p.1) (fun p => p.2) (fun p => pyBytes version p.2)
          ((codeLast version).zip last) fun p hp => by
            have hm := List.of_mem_zip hp
            refine ih _ p.2 (by have := py_sizes_mem last p.2 hm.2; omega) (py_all_good version last h7 _ hm.2) fun hn => ?_
            exact h8 (l5 p.1 hm.1 (by simpa using hn)) p.2 hm.2
        rw [List.map_fst_zip (by omega), List.map_snd_zip (by omega)] at r
        refine r.of_eq rfl ?_
        conv => rhs; rw [← List.map_snd_zip (l₁ := codeLast version) (l₂ := last) (by omega)]
        rw [List.flatMap_map]

/-- Violation: an ASCII text of more than 65535 characters, which Python writes as `a`, cannot be read. -/
theorem C128_long_text (version : Nat) (fuel : Nat) (flag : Bool) (v : Bytes) (h1 : 65535 < v.length) (h2 : v.length < 2 ^ 32) :
    Fails (object version (fuel + 1) false) .field (pyBytes version (.text 97 flag v)) := by
  refine Reads.fails (reads_head 97 (by omega) flag) ?_
  show Fails ((do let v ← ascii 4; pure (.text 97 flag v)) : Rd PyObj) _ _
  have f : Fails (ascii 4) .field (leBytes 4 v.length ++ v) := by
    refine Reads.fails (reads_int_le 4 v.length (by omega) h2) ?_
    rw [if_neg (by omega)]
    exact fails_fixed .little .eightBit v.length h1 v
  intro data s hs k stop hp hst
  show Rd.bind (ascii 4) _ s stop (8 * k) = _
  rw [Rd.bind, f data s hs k stop hp hst]

/-! ## Values -/

/-- The objects Python keeps for references while it reads: those with a flag (not there while they are read), and interned texts (Python 2). -/
structure PyKept where
  refs : List (Option PyVal)
  strs : List PyVal

/-- Keep a value without parts. -/
def PyKept.leaf (k : PyKept) (flag : Bool) (v : PyVal) : PyKept := if flag then { k with refs := k.refs ++ [some v] } else k

/-- Keep a place for a value with parts. -/
def PyKept.reserve (k : PyKept) (flag : Bool) : PyKept := if flag then { k with refs := k.refs ++ [none] } else k

/-- Fill the place. -/
def PyKept.fill (k : PyKept) (flag : Bool) (i : Nat) (v : PyVal) : PyKept := if flag then { k with refs := k.refs.set i (some v) } else k

/-- Digits of a long integer, in base 32768, the lowest first. -/
def longDigits : List Nat → Nat
  | [] => 0
  | d :: ds => d + 32768 * longDigits ds

/-- Keys and values without the null object at the end. -/
def keysValues : List PyVal → List (PyVal × PyVal)
  | k :: v :: is => (k, v) :: keysValues is
  | _ => []

mutual
/-- What Python loads (`r_object` of CPython's marshal.c); code and slices, which are not data, are `.none` here.  No value (`none`): nothing
Python can have written; a part that refers to the object it is in is left out, too. -/
def load (py3 : Bool) : PyObj → PyKept → Option (PyVal × PyKept)
  | .atom c f, k => if f then none else some (if c = 84 then .bool true else if c = 70 then .bool false else if c = 46 then .ellipsis else .none, k)
  | .num _ f v, k => some (.int v, k.leaf f (.int v))
  | .float f v, k => some (.float v, k.leaf f (.float v))
  | .double f v, k => some (.double v, k.leaf f (.double v))
  | .complex f re im, k => some (.complex re im, k.leaf f (.complex re im))
  | .doubles f re im, k => some (.doubles re im, k.leaf f (.doubles re im))
  | .long f count digits, k =>
    let v := PyVal.int (if 0 ≤ count then (longDigits digits : Int) else -(longDigits digits))
    some (v, k.leaf f v)
  | .text c f b, k =>
    if py3 then some (.bytes b, k.leaf f (.bytes b))
    else if c = 115 ∨ c = 117 then some (.bytes b, k.leaf f (.bytes b))
    else if c = 116 then some (.bytes b, { (k.leaf f (.bytes b)) with strs := k.strs ++ [.bytes b] })
    else none
  | .textRef f n, k => if py3 ∨ f then none else (k.strs[n]?).map fun v => (v, k)
  | .ref f n, k => if f then none else match k.refs[n]? with
    | some (some v) => some (v, k)
    | _ => none
  | .seq c f items, k => match loads py3 items (k.reserve f) with
    | some (vs, k') => some (.seq c vs, k'.fill f k.refs.length (.seq c vs))
    | none => none
  | .dict _ f items, k => match loads py3 items (k.reserve f) with
    | some (vs, k') => some (.dict (keysValues vs), k'.fill f k.refs.length (.dict (keysValues vs)))
    | none => none
  | .slice f a b c, k => match load py3 a (k.reserve f) with
    | some (_, k1) => match load py3 b k1 with
      | some (_, k2) => match load py3 c k2 with
        | some (_, k3) => some (.none, k3.fill f k.refs.length .none)
        | none => none
      | none => none
    | none => none
  | .code f _ objs _ last, k => match loads py3 objs (k.reserve f) with
    | some (_, k1) => match loads py3 last k1 with
      | some (_, k2) => some (.none, k2.fill f k.refs.length .none)
      | none => none
    | none => none

def loads (py3 : Bool) : List PyObj → PyKept → Option (List PyVal × PyKept)
  | [], k => some ([], k)
  | o :: os, k => match load py3 o k with
    | some (v, k1) => match loads py3 os k1 with
      | some (vs, k2) => some (v :: vs, k2)
      | none => none
    | none => none
end

mutual
/-- No text is empty. -/
def NoEmpty : PyObj → Prop
  | .text _ _ v => v ≠ []
  | .seq _ _ items => NoEmptys items
  | .dict _ _ items => NoEmptys items
  | .slice _ a b c => NoEmpty a ∧ NoEmpty b ∧ NoEmpty c
  | .code _ _ objs _ last => NoEmptys objs ∧ NoEmptys last
  | _ => True

def NoEmptys : List PyObj → Prop
  | [] => True
  | o :: os => NoEmpty o ∧ NoEmptys os
end

/-- The value, when recursion may be deep enough. -/
def HasValue (T S : List PyObj) (o : PyObj) (v : PyVal) : Prop := ∃ F, ∀ fuel, F ≤ fuel → value T S fuel o = some v

/-- What is kept has its value in the tables. -/
structure Agree (py3 : Bool) (T S : List PyObj) (k : PyKept) : Prop where
  refs : ∀ (i : Nat) (v : PyVal), k.refs[i]? = some (some v) → ∃ o, T[i]? = some o ∧ HasValue T S o v
  strs : py3 = false → ∀ (i : Nat) (v : PyVal), k.strs[i]? = some v → ∃ o, S[i]? = some o ∧ HasValue T S o v

/-- Loading adds as many objects as the tables get. -/
structure Grown (py3 : Bool) (k k' : PyKept) (t s : List PyObj) : Prop where
  refs : k'.refs.length = k.refs.length + t.length
  strs : py3 = false → k'.strs.length = k.strs.length + s.length

theorem Grown.trans {py3 : Bool} {k k' k'' : PyKept} {t t' s s' : List PyObj} (h : Grown py3 k k' t s) (h' : Grown py3 k' k'' t' s') :
    Grown py3 k k'' (t ++ t') (s ++ s') := by
  refine ⟨?_, fun h3 => ?_⟩
  · rw [h'.refs, h.refs, List.length_append]; omega
  · rw [h'.strs h3, h.strs h3, List.length_append]; omega

theorem has_value_of (T S : List PyObj) (o : PyObj) (v : PyVal) (h : ∀ fuel, value T S (fuel + 1) o = some v) : HasValue T S o v := by
  refine ⟨1, fun fuel hf => ?_⟩
  obtain ⟨f, rfl⟩ : ∃ f, fuel = f + 1 := ⟨fuel - 1, by omega⟩
  exact h f

theorem has_values (T S : List PyObj) : ∀ (os : List PyObj) (vs : List PyVal), List.Forall₂ (HasValue T S) os vs →
    ∃ F, ∀ fuel, F ≤ fuel → os.mapM (value T S fuel) = some vs := by
  intro os vs h
  induction h with
  | nil => exact ⟨0, fun _ _ => rfl⟩
  | cons h1 _ ih =>
    obtain ⟨F1, h1⟩ := h1
    obtain ⟨F2, h2⟩ := ih
    refine ⟨max F1 F2, fun fuel hf => ?_⟩
    rw [List.mapM_cons, h1 fuel (by omega), h2 fuel (by omega)]
    rfl

theorem agree_leaf {py3 : Bool} {T S : List PyObj} {k : PyKept} (h : Agree py3 T S k) (o : PyObj) (f : Bool) (v : PyVal) (hv : HasValue T S o v)
    (ht : (if f then [o] else []) <+: T.drop k.refs.length) : Agree py3 T S (k.leaf f v) ∧ Grown py3 k (k.leaf f v) (if f then [o] else []) [] := by
  cases f with
  | false => exact ⟨h, rfl, fun _ => rfl⟩
  | true =>
    refine ⟨⟨?_, h.strs⟩, by simp [PyKept.leaf], fun _ => rfl⟩
    intro i w hw
    have hw : (k.refs ++ [some v])[i]? = some (some w) := hw
    rw [List.getElem?_append] at hw
    by_cases hi : i < k.refs.length
    · rw [if_pos hi] at hw
      exact h.refs i w hw
    · rw [if_neg hi] at hw
      have hi0 : i = k.refs.length := by
        by_contra hne
        rw [List.getElem?_eq_none (by simp; omega)] at hw
        simp at hw
      subst hi0
      simp at hw
      subst hw
      obtain ⟨t, ht⟩ := ht
      refine ⟨o, ?_, hv⟩
      have : (T.drop k.refs.length)[0]? = some o := by rw [← ht]; rfl
      simpa using this

theorem agree_reserve {py3 : Bool} {T S : List PyObj} {k : PyKept} (h : Agree py3 T S k) (f : Bool) (o : PyObj) :
    Agree py3 T S (k.reserve f) ∧ Grown py3 k (k.reserve f) (if f then [o] else []) [] := by
  cases f with
  | false => exact ⟨h, rfl, fun _ => rfl⟩
  | true =>
    refine ⟨⟨?_, h.strs⟩, by simp [PyKept.reserve], fun _ => rfl⟩
    intro i w hw
    have hw : (k.refs ++ [none])[i]? = some (some w) := hw
    rw [List.getElem?_append] at hw
    by_cases hi : i < k.refs.length
    · rw [if_pos hi] at hw
      exact h.refs i w hw
    · rw [if_neg hi] at hw
      have : i - k.refs.length = 0 ∨ 0 < i - k.refs.length := by omega
      rcases this with h0 | h0
      · rw [h0] at hw
        simp at hw
      · rw [List.getElem?_eq_none (by simp; omega)] at hw
        simp at hw

theorem agree_fill {py3 : Bool} {T S : List PyObj} {k : PyKept} (h : Agree py3 T S k) (f : Bool) (i : Nat) (o : PyObj) (v : PyVal) (hv : HasValue T S o v)
    (ht : f = true → T[i]? = some o) : Agree py3 T S (k.fill f i v) ∧ Grown py3 k (k.fill f i v) [] [] := by
  cases f with
  | false => exact ⟨h, rfl, fun _ => rfl⟩
  | true =>
    refine ⟨⟨?_, h.strs⟩, by simp [PyKept.fill], fun _ => rfl⟩
    intro j w hw
    have hw : (k.refs.set i (some v))[j]? = some (some w) := hw
    rw [List.getElem?_set] at hw
    by_cases hij : i = j
    · subst hij
      rw [if_pos rfl] at hw
      split at hw
      · simp at hw
        subst hw
        exact ⟨o, ht rfl, hv⟩
      · simp at hw
    · rw [if_neg hij] at hw
      exact h.refs j w hw

theorem long_value (count : Int) (digits : List Nat) :
    longValue count digits = if 0 ≤ count then (longDigits digits : Int) else -(longDigits digits) := by
  have e : digits.reverse.foldl (fun t d => t * 2 ^ 15 + d) 0 = longDigits digits := by
    rw [List.foldl_reverse]
    induction digits with
    | nil => rfl
    | cons d ds ih => rw [List.foldr_cons, ih, longDigits]; omega
  unfold longValue
  simp only [e]
  by_cases h : 0 ≤ count
  · rw [if_neg (by omega), if_pos h]
  · rw [if_pos (by omega), if_neg h]

theorem keys_values : ∀ vs : List PyVal, pairsOf vs = keysValues vs
  | [] => rfl
  | [_] => rfl
  | k :: v :: is => by rw [pairsOf, keysValues, keys_values is]

theorem table_left {xs ys zs : List PyObj} (h : (xs ++ ys) <+: zs) : xs <+: zs := (List.prefix_append xs ys).trans h

theorem table_right {xs ys zs : List PyObj} {n : Nat} (h : (xs ++ ys) <+: zs.drop n) : ys <+: zs.drop (n + xs.length) := by
  obtain ⟨t, ht⟩ := h
  rw [← List.drop_drop, ← ht, List.append_assoc, List.drop_left]
  exact List.prefix_append ys t

/-- The place of an object, and of what is in it. -/
theorem table_place {T : List PyObj} {n : Nat} {f : Bool} {o : PyObj} {t : List PyObj} (h : ((if f then [o] else []) ++ t) <+: T.drop n) :
    (f = true → T[n]? = some o) ∧ t <+: T.drop (n + (if f then [o] else []).length) := by
  refine ⟨?_, table_right (xs := if f then [o] else []) (ys := t) h⟩
  rintro rfl
  obtain ⟨r, hr⟩ := h
  have : (T.drop n)[0]? = some o := by rw [← hr]; rfl
  simpa using this

mutual
theorem load_value (py3 : Bool) (T S : List PyObj) : ∀ (o : PyObj) (k k' : PyKept) (v : PyVal), load py3 o k = some (v, k') → NoEmpty o →
    objectTable o <+: T.drop k.refs.length → (py3 = false → stringTable o <+: S.drop k.strs.length) → Agree py3 T S k →
    HasValue T S o v ∧ Agree py3 T S k' ∧ Grown py3 k k' (objectTable o) (stringTable o)
  | .atom c f, k, k', v, h, _, ht, hs, ha => by
    cases f with
    | true => simp [load] at h
    | false =>
      simp only [load, Bool.false_eq_true, if_false, Option.some.injEq, Prod.mk.injEq] at h
      obtain ⟨rfl, rfl⟩ := h
      refine ⟨has_value_of _ _ _ _ fun fuel => ?_, ha, rfl, fun _ => rfl⟩
      rw [value]
      congr 1
      by_cases h1 : c = 84
      · subst h1; rfl
      · by_cases h2 : c = 70
        · subst h2; rfl
        · rw [if_neg h2, if_neg h1, if_neg h1, if_neg h2]
  | .num c f v, k, k', w, h, _, ht, hs, ha => by
    simp only [load, Option.some.injEq, Prod.mk.injEq] at h
    obtain ⟨rfl, rfl⟩ := h
    have hv := has_value_of T S (.num c f v) (.int v) fun fuel => rfl
    exact ⟨hv, agree_leaf ha (.num c f v) f _ hv ht⟩
  | .float f v, k, k', w, h, _, ht, hs, ha => by
    simp only [load, Option.some.injEq, Prod.mk.injEq] at h
    obtain ⟨rfl, rfl⟩ := h
    have hv := has_value_of T S (.float f v) (.float v) fun fuel => rfl
    exact ⟨hv, agree_leaf ha (.float f v) f _ hv ht⟩
  | .double f v, k, k', w, h, _, ht, hs, ha => by
    simp only [load, Option.some.injEq, Prod.mk.injEq] at h
    obtain ⟨rfl, rfl⟩ := h
    have hv := has_value_of T S (.double f v) (.double v) fun fuel => rfl
    exact ⟨hv, agree_leaf ha (.double f v) f _ hv ht⟩
  | .complex f re im, k, k', w, h, _, ht, hs, ha => by
    simp only [load, Option.some.injEq, Prod.mk.injEq] at h
    obtain ⟨rfl, rfl⟩ := h
    have hv := has_value_of T S (.complex f re im) (.complex re im) fun fuel => rfl
    exact ⟨hv, agree_leaf ha (.complex f re im) f _ hv ht⟩
  | .doubles f re im, k, k', w, h, _, ht, hs, ha => by
    simp only [load, Option.some.injEq, Prod.mk.injEq] at h
    obtain ⟨rfl, rfl⟩ := h
    have hv := has_value_of T S (.doubles f re im) (.doubles re im) fun fuel => rfl
    exact ⟨hv, agree_leaf ha (.doubles f re im) f _ hv ht⟩
  | .long f count digits, k, k', w, h, _, ht, hs, ha => by
    simp only [load, Option.some.injEq, Prod.mk.injEq] at h
    obtain ⟨rfl, rfl⟩ := h
    have hv := has_value_of T S (.long f count digits) (.int (if 0 ≤ count then (longDigits digits : Int) else -(longDigits digits))) fun fuel => by
      rw [value, long_value]
    exact ⟨hv, agree_leaf ha (.long f count digits) f _ hv ht⟩
  | .text c f b, k, k', w, h, hn, ht, hs, ha => by
    have hn : b ≠ [] := hn
    have hv := has_value_of T S (.text c f b) (.bytes b) fun fuel => by rw [value, if_neg hn]
    have hl := agree_leaf ha (.text c f b) f _ hv ht
    cases py3 with
    | true =>
      simp only [load, if_true, Option.some.injEq, Prod.mk.injEq] at h
      obtain ⟨rfl, rfl⟩ := h
      exact ⟨hv, hl.1, hl.2.refs, fun h => by simp at h⟩
    | false =>
      rw [load, if_neg (by decide)] at h
      by_cases h1 : c = 115 ∨ c = 117
      · rw [if_pos h1] at h
        simp only [Option.some.injEq, Prod.mk.injEq] at h
        obtain ⟨rfl, rfl⟩ := h
        refine ⟨hv, hl.1, hl.2.refs, fun h => ?_⟩
        rw [stringTable, if_neg (by omega)]
        exact hl.2.strs h
      · rw [if_neg h1] at h
        by_cases h2 : c = 116
        · rw [if_pos h2] at h
          simp only [Option.some.injEq, Prod.mk.injEq] at h
          obtain ⟨rfl, rfl⟩ := h
          have e : stringTable (.text c f b) = [.text c f b] := by rw [stringTable, if_pos (.inl h2)]
          refine ⟨hv, ⟨hl.1.refs, fun h3 i w hw => ?_⟩, hl.2.refs, fun h => by simp [e]⟩
          have hw : (k.strs ++ [.bytes b])[i]? = some w := hw
          rw [List.getElem?_append] at hw
          by_cases hi : i < k.strs.length
          · rw [if_pos hi] at hw
            exact ha.strs h3 i w hw
          · rw [if_neg hi] at hw
            have hi0 : i = k.strs.length := by
              by_contra hne
              rw [List.getElem?_eq_none (by simp; omega)] at hw
              simp at hw
            subst hi0
            simp at hw
            subst hw
            have hs := hs rfl
            rw [e] at hs
            obtain ⟨t, ht⟩ := hs
            refine ⟨_, ?_, hv⟩
            have : (S.drop k.strs.length)[0]? = some (.text c f b) := by rw [← ht]; rfl
            simpa using this
        · rw [if_neg h2] at h
          simp at h
  | .textRef f n, k, k', w, h, _, ht, hs, ha => by
    rw [load] at h
    by_cases hc : py3 = true ∨ f = true
    · rw [if_pos hc] at h
      simp at h
    · rw [if_neg hc] at h
      obtain ⟨v, hv, h⟩ := Option.map_eq_some_iff.1 h
      simp only [Prod.mk.injEq] at h
      obtain ⟨rfl, rfl⟩ := h
      have hf : f = false := by simpa using fun hf => hc (.inr hf)
      subst hf
      obtain ⟨o, ho, F, hF⟩ := ha.strs (by simpa using fun hp => hc (.inl hp)) n v hv
      refine ⟨⟨F + 1, fun fuel hfu => ?_⟩, ha, rfl, fun _ => rfl⟩
      obtain ⟨g, rfl⟩ : ∃ g, fuel = g + 1 := ⟨fuel - 1, by omega⟩
      rw [value, ho]
      exact hF g (by omega)
  | .ref f n, k, k', w, h, _, ht, hs, ha => by
    rw [load] at h
    by_cases hc : f = true
    · rw [if_pos hc] at h
      simp at h
    · rw [if_neg hc] at h
      have hf : f = false := by simpa using hc
      subst hf
      split at h
      · rename_i v hv
        simp only [Option.some.injEq, Prod.mk.injEq] at h
        obtain ⟨rfl, rfl⟩ := h
        obtain ⟨o, ho, F, hF⟩ := ha.refs n v hv
        refine ⟨⟨F + 1, fun fuel hfu => ?_⟩, ha, rfl, fun _ => rfl⟩
        obtain ⟨g, rfl⟩ : ∃ g, fuel = g + 1 := ⟨fuel - 1, by omega⟩
        rw [value, ho]
        exact hF g (by omega)
      · simp at h
  | .seq c f items, k, k', w, h, hn, ht, hs, ha => by
    rw [load] at h
    obtain ⟨p1, p2⟩ := table_place (o := .seq c f items) ht
    obtain ⟨a1, g1⟩ := agree_reserve ha f (.seq c f items)
    split at h
    · rename_i vs k1 hl
      simp only [Option.some.injEq, Prod.mk.injEq] at h
      obtain ⟨rfl, rfl⟩ := h
      obtain ⟨hv, a2, g2⟩ := loads_value py3 T S items _ _ _ hl hn (by rw [g1.refs]; exact p2) (fun h3 => by rw [g1.strs h3]; exact hs h3) a1
      obtain ⟨F, hF⟩ := has_values T S _ _ hv
      have hv : HasValue T S (.seq c f items) (.seq c vs) := by
        refine ⟨F + 1, fun fuel hfu => ?_⟩
        obtain ⟨g, rfl⟩ : ∃ g, fuel = g + 1 := ⟨fuel - 1, by omega⟩
        rw [value, hF g (by omega)]
        rfl
      obtain ⟨a3, g3⟩ := agree_fill a2 f k.refs.length _ _ hv p1
      refine ⟨hv, a3, ?_⟩
      have := (g1.trans g2).trans g3
      simpa [objectTable, stringTable] using this
    · simp at h
  | .dict c f items, k, k', w, h, hn, ht, hs, ha => by
    rw [load] at h
    obtain ⟨p1, p2⟩ := table_place (o := .dict c f items) ht
    obtain ⟨a1, g1⟩ := agree_reserve ha f (.dict c f items)
    split at h
    · rename_i vs k1 hl
      simp only [Option.some.injEq, Prod.mk.injEq] at h
      obtain ⟨rfl, rfl⟩ := h
      obtain ⟨hv, a2, g2⟩ := loads_value py3 T S items _ _ _ hl hn (by rw [g1.refs]; exact p2) (fun h3 => by rw [g1.strs h3]; exact hs h3) a1
      obtain ⟨F, hF⟩ := has_values T S _ _ hv
      have hv : HasValue T S (.dict c f items) (.dict (keysValues vs)) := by
        refine ⟨F + 1, fun fuel hfu => ?_⟩
        obtain ⟨g, rfl⟩ : ∃ g, fuel = g + 1 := ⟨fuel - 1, by omega⟩
        rw [value, hF g (by omega), ← keys_values]
        rfl
      obtain ⟨a3, g3⟩ := agree_fill a2 f k.refs.length _ _ hv p1
      refine ⟨hv, a3, ?_⟩
      have := (g1.trans g2).trans g3
      simpa [objectTable, stringTable] using this
    · simp at h
  | .slice f a b c, k, k', w, h, hn, ht, hs, ha => by
    rw [load] at h
    obtain ⟨p1, p2⟩ := table_place (o := .slice f a b c) ht
    obtain ⟨a1, g1⟩ := agree_reserve ha f (.slice f a b c)
    split at h
    · rename_i v1 k1 hl1
      split at h
      · rename_i v2 k2 hl2
        split at h
        · rename_i v3 k3 hl3
          simp only [Option.some.injEq, Prod.mk.injEq] at h
          obtain ⟨rfl, rfl⟩ := h
          obtain ⟨_, a2, g2⟩ := load_value py3 T S a _ _ _ hl1 hn.1 (by rw [g1.refs]; exact table_left (xs := objectTable a) p2)
            (fun h3 => by rw [g1.strs h3]; exact table_left (xs := stringTable a) (hs h3)) a1
          have g12 := g1.trans g2
          obtain ⟨_, a3, g3⟩ := load_value py3 T S b _ _ _ hl2 hn.2.1 (by
              rw [g2.refs, g1.refs]; exact table_left (xs := objectTable b) (table_right (xs := objectTable a) p2))
            (fun h3 => by rw [g2.strs h3, g1.strs h3]; exact table_left (xs := stringTable b) (table_right (xs := stringTable a) (hs h3))) a2
          obtain ⟨_, a4, g4⟩ := load_value py3 T S c _ _ _ hl3 hn.2.2 (by
              rw [g3.refs, g2.refs, g1.refs]; exact table_right (xs := objectTable b) (table_right (xs := objectTable a) p2))
            (fun h3 => by rw [g3.strs h3, g2.strs h3, g1.strs h3]; exact table_right (xs := stringTable b) (table_right (xs := stringTable a) (hs h3))) a3
          have hv : HasValue T S (.slice f a b c) .none := has_value_of _ _ _ _ fun _ => rfl
          obtain ⟨a5, g5⟩ := agree_fill a4 f k.refs.length _ _ hv p1
          refine ⟨hv, a5, ?_⟩
          have := (((g1.trans g2).trans g3).trans g4).trans g5
          simpa [objectTable, stringTable] using this
        · simp at h
      · simp at h
    · simp at h
  | .code f nums objs line last, k, k', w, h, hn, ht, hs, ha => by
    rw [load] at h
    obtain ⟨p1, p2⟩ := table_place (o := .code f nums objs line last) ht
    obtain ⟨a1, g1⟩ := agree_reserve ha f (.code f nums objs line last)
    split at h
    · rename_i v1 k1 hl1
      split at h
      · rename_i v2 k2 hl2
        simp only [Option.some.injEq, Prod.mk.injEq] at h
        obtain ⟨rfl, rfl⟩ := h
        obtain ⟨_, a2, g2⟩ := loads_value py3 T S objs _ _ _ hl1 hn.1 (by rw [g1.refs]; exact table_left (xs := objectTables objs) p2)
          (fun h3 => by rw [g1.strs h3]; exact table_left (xs := stringTables objs) (hs h3)) a1
        obtain ⟨_, a3, g3⟩ := loads_value py3 T S last _ _ _ hl2 hn.2 (by
            rw [g2.refs, g1.refs]; exact table_right (xs := objectTables objs) p2)
          (fun h3 => by rw [g2.strs h3, g1.strs h3]; exact table_right (xs := stringTables objs) (hs h3)) a2
        have hv : HasValue T S (.code f nums objs line last) .none := has_value_of _ _ _ _ fun _ => rfl
        obtain ⟨a5, g5⟩ := agree_fill a3 f k.refs.length _ _ hv p1
        refine ⟨hv, a5, ?_⟩
        have := ((g1.trans g2).trans g3).trans g5
        simpa [objectTable, stringTable] using this
      · simp at h
    · simp at h

theorem loads_value (py3 : Bool) (T S : List PyObj) : ∀ (os : List PyObj) (k k' : PyKept) (vs : List PyVal), loads py3 os k = some (vs, k') → NoEmptys os →
    objectTables os <+: T.drop k.refs.length → (py3 = false → stringTables os <+: S.drop k.strs.length) → Agree py3 T S k →
    List.Forall₂ (HasValue T S) os vs ∧ Agree py3 T S k' ∧ Grown py3 k k' (objectTables os) (stringTables os)
  | [], k, k', vs, h, _, _, _, ha => by
    simp only [loads, Option.some.injEq, Prod.mk.injEq] at h
    obtain ⟨rfl, rfl⟩ := h
    exact ⟨.nil, ha, rfl, fun _ => rfl⟩
  | o :: os, k, k', vs, h, hn, ht, hs, ha => by
    rw [loads] at h
    split at h
    · rename_i v k1 hl1
      split at h
      · rename_i vs k2 hl2
        simp only [Option.some.injEq, Prod.mk.injEq] at h
        obtain ⟨rfl, rfl⟩ := h
        obtain ⟨h1, a1, g1⟩ := load_value py3 T S o _ _ _ hl1 hn.1 (table_left (xs := objectTable o) ht)
          (fun h3 => table_left (xs := stringTable o) (hs h3)) ha
        obtain ⟨h2, a2, g2⟩ := loads_value py3 T S os _ _ _ hl2 hn.2 (by rw [g1.refs]; exact table_right (xs := objectTable o) ht)
          (fun h3 => by rw [g1.strs h3]; exact table_right (xs := stringTable o) (hs h3)) a1
        exact ⟨.cons h1 h2, a2, g1.trans g2⟩
      · simp at h
    · simp at h
end

/-- **C129**: the value of whatever Python has written, with all references to objects and interned texts, is what Python loads. -/
theorem C129_value_partial (py3 : Bool) (o : PyObj) (v : PyVal) (k : PyKept) (h : load py3 o ⟨[], []⟩ = some (v, k)) (hn : NoEmpty o) :
    ∃ F, ∀ fuel, F ≤ fuel → value (objectTable o) (stringTable o) fuel o = some v :=
  (load_value py3 (objectTable o) (stringTable o) o ⟨[], []⟩ k v h hn (by simp) (fun _ => by simp) ⟨by simp, by simp⟩).1

/-- Violation: an empty text has no value. -/
theorem C129_empty (py3 : Bool) (T S : List PyObj) (fuel : Nat) (f : Bool) :
    value T S (fuel + 1) (.text 115 f []) = some .none ∧ ∃ k, load py3 (.text 115 f []) ⟨[], []⟩ = some (.bytes [], k) := by
  refine ⟨rfl, ?_⟩
  cases py3 <;> exact ⟨_, rfl⟩

/-- Tuples with references: `("ab", [1, "ab" again], 2 ** 15 + 3)`. -/
example : load true (.seq 41 false [.text 122 true [97, 98], .seq 91 true [.num 105 false 1, .ref false 0], .long true 2 [3, 1], .ref false 2]) ⟨[], []⟩ =
    some (.seq 41 [.bytes [97, 98], .seq 91 [.int 1, .bytes [97, 98]], .int 32771, .int 32771],
      ⟨[some (.bytes [97, 98]), some (.seq 91 [.int 1, .bytes [97, 98]]), some (.int 32771)], []⟩) := by rfl

/-- Interned texts of Python 2. -/
example : load false (.seq 40 false [.text 116 false [97], .text 116 false [98], .textRef false 1]) ⟨[], []⟩ =
    some (.seq 40 [.bytes [97], .bytes [98], .bytes [98]], ⟨[], [.bytes [97], .bytes [98]]⟩) := by rfl

example : PyGood 0x30800F0 (.dict 123 true [.text 122 false [97], .num 105 false (-2), .atom 48 false]) := by
  simp [PyGood, PyAllGood, DictShape, PyObj.char]

/-! ## Files -/

/-- How a compiled file is tied to its source: time and size, or a hash (from 3.7a4 on). -/
inductive PycKind
  | stamp (time size : Nat)
  | hash (checked : Bool) (hash : Nat)

/-- The magic numbers of Python 1 and 2 are from 20121 on. -/
def pyc3 (first magic : Nat) : Prop := first ≤ magic ∧ magic < 20000

instance (first magic : Nat) : Decidable (pyc3 first magic) := inferInstanceAs (Decidable (_ ∧ _))

/-- The header as Python writes it: with flags from 3392 on (PEP 552), with the size of the source from 3210 on. -/
def pycBytes (magic : Nat) (kind : PycKind) : Bytes :=
  leBytes 2 magic ++ ([13, 10] ++ match kind with
    | .stamp time size => (if pyc3 3392 magic then [0, 0, 0, 0] else []) ++ (leBytes 4 time ++ (if pyc3 3210 magic then leBytes 4 size else []))
    | .hash checked hash => [if checked then 3 else 1, 0, 0, 0] ++ leBytes 8 hash)

def PycGood (magic : Nat) : PycKind → Prop
  | .stamp time size => time < 2 ^ 32 ∧ size < 2 ^ 32
  | .hash _ hash => pyc3 3392 magic ∧ hash < 2 ^ 64

def pycHeader (magic : Nat) : PycKind → PycHeader
  | .stamp time size => ⟨magic, [13, 10], if pyc3 3392 magic then some [0, 0, 0] else none, none, some time, if pyc3 3210 magic then some size else none⟩
  | .hash checked hash => ⟨magic, [13, 10], some [1, if checked then 1 else 0, 0], some hash, none, none⟩

/-- The whole table: when there are flags, and when there is a size. -/
theorem magic_table : ∀ p ∈ magics, (0x30700A4 ≤ p.2 ↔ pyc3 3392 p.1) ∧ (p.1 ≠ 3200 → ((0x3030000 ≤ p.2 ∧ 3200 ≤ p.1) ↔ pyc3 3210 p.1)) ∧ p.1 < 65536 := by
  decide +kernel

theorem lookup_mem {magic version : Nat} : ∀ {t : List (Nat × Nat)}, t.lookup magic = some version → (magic, version) ∈ t
  | [], h => by simp at h
  | (a, b) :: t, h => by
    rw [List.lookup_cons] at h
    by_cases hab : magic = a
    · subst hab
      simp at h
      subst h
      simp
    · rw [show (magic == a) = false by simpa using hab] at h
      exact List.mem_cons_of_mem _ (lookup_mem h)

theorem reads_flags (b : UInt8) (hb : b = 0 ∨ b = 1 ∨ b = 3) :
    Reads (Rd.bits .little [1, 1, 30]) [b.toNat % 2, b.toNat / 2, 0] [b, 0, 0, 0] := by
  refine (reads_bits_le [1, 1, 30] [b, 0, 0, 0] (by simp) (by simp)).of_eq ?_ rfl
  rcases hb with rfl | rfl | rfl <;> rfl

theorem reads_crlf : Reads (Rd.text .little .fixed .eightBit (some 2)) [13, 10] [13, 10] :=
  reads_fixed .little .eightBit (by decide) 2 [13, 10] rfl (by omega)

/-- **C130**: the header of files of every version of Python. -/
theorem C130_header_partial (magic version : Nat) (hm : versionOf magic = some version) (h3200 : magic ≠ 3200) (kind : PycKind) (hk : PycGood magic kind) :
    Reads header (pycHeader magic kind) (pycBytes magic kind) := by
  obtain ⟨t1, t2, t3⟩ := magic_table (magic, version) (lookup_mem hm)
  have t2 := t2 h3200
  refine Reads.bind (reads_int_le 2 magic (by omega) (by norm_num; exact t3)) ?_
  refine Reads.bind reads_crlf ?_
  rw [hm]
  cases kind with
  | stamp time size =>
    refine Reads.bind (v := if pyc3 3392 magic then some [0, 0, 0] else none) ?_ ?_
    · unfold pycFlags
      by_cases hf : pyc3 3392 magic
      · rw [if_pos (t1.2 hf), if_pos hf, if_pos hf]
        exact Reads.map (f := some) (reads_flags 0 (.inl rfl))
      · rw [if_neg (fun h => hf (t1.1 h)), if_neg hf, if_neg hf]
        exact reads_pure _
    · rw [if_neg (by split <;> simp)]
      refine Reads.bind (reads_int_le 4 time (by omega) (by have := hk.1; norm_num; omega)) ?_
      refine Reads.map (f := fun n => PycHeader.mk magic [13, 10] _ none (some time) n) ?_
      unfold sourceSize
      by_cases hf : pyc3 3210 magic
      · rw [if_pos (t2.2 hf), if_pos hf, if_pos hf]
        exact Reads.map (f := some) (reads_int_le 4 size (by omega) (by have := hk.2; norm_num; omega))
      · rw [if_neg (fun h => hf (t2.1 h)), if_neg hf, if_neg hf]
        exact reads_pure _
  | hash checked hash =>
    refine Reads.bind (v := some [1, if checked then 1 else 0, 0]) ?_ ?_
    · unfold pycFlags
      rw [if_pos (t1.2 hk.1)]
      refine Reads.map (f := some) ?_
      cases checked
      · exact reads_flags 1 (.inr (.inl rfl))
      · exact reads_flags 3 (.inr (.inr rfl))
    · rw [if_pos (by rfl)]
      exact Reads.map (f := fun h => PycHeader.mk magic [13, 10] _ (some h) none none) (reads_int_le 8 hash (by omega) (by have := hk.2; norm_num; omega))

/-- **C130**: files of every version of Python (except 2.0 and one release before 3.3) are accepted, and the header and the code are read as they were written. -/
theorem C130_file_partial (magic version : Nat) (hm : versionOf magic = some version) (h3200 : magic ≠ 3200) (h20 : magic ≠ 50823) (kind : PycKind)
    (hk : PycGood magic kind) (o : PyObj) (fuel : Nat) (hf : pySize o < fuel) (hg : PyGood version o) (hc : o.char = 99) :
    Reads (pyc fuel) (pycHeader magic kind, o) (pycBytes magic kind ++ pyBytes version o) ∧ valid (pycHeader magic kind) o = true := by
  have hh : (pycHeader magic kind).magic = magic ∧ (pycHeader magic kind).crlf = [13, 10] := by cases kind <;> exact ⟨rfl, rfl⟩
  have hv : version < 0x2000000 ∨ 0x2010000 ≤ version := by
    have : ∀ p ∈ magics, p.1 ≠ 50823 → p.2 < 0x2000000 ∨ 0x2010000 ≤ p.2 := by decide +kernel
    exact this (magic, version) (lookup_mem hm) h20
  refine ⟨?_, ?_⟩
  · refine Reads.bind (C130_header_partial magic version hm h3200 kind hk) ?_
    rw [hh.1, hm]
    exact Reads.map (f := fun o => (pycHeader magic kind, o)) (C128_object_partial version hv fuel false o hf hg (by simp))
  · unfold valid
    rw [hh.1, hh.2, hm, hc]
    rfl

/-- **C130**: other magic numbers are not read. -/
theorem C130_unknown (magic : Nat) (h : magic < 65536) (hm : ∀ p ∈ magics, p.1 ≠ magic) :
    Fails header .key (leBytes 2 magic ++ [13, 10]) := by
  have e : versionOf magic = none := by
    cases hv : versionOf magic with
    | none => rfl
    | some v => exact absurd rfl (hm _ (lookup_mem hv))
  refine Reads.fails (reads_int_le 2 magic (by omega) (by norm_num; exact h)) ?_
  refine (Reads.fails (xs := [13, 10]) (ys := []) reads_crlf ?_)
  rw [e]
  exact fails_fail _

/-- Violation: files with magic number 3200 have no size; the first four bytes of the code are taken for it. -/
theorem C130_size3200 (time n : Nat) (ht : time < 2 ^ 32) (hn : n < 2 ^ 32) :
    Reads header ⟨3200, [13, 10], none, none, some time, some n⟩ (pycBytes 3200 (.stamp time 0) ++ leBytes 4 n) := by
  refine Reads.of_eq (bs := leBytes 2 3200 ++ ([13, 10] ++ ([] ++ (leBytes 4 time ++ leBytes 4 n)))) ?_ rfl ?_
  · refine Reads.bind (reads_int_le 2 3200 (by omega) (by norm_num)) ?_
    refine Reads.bind reads_crlf ?_
    refine Reads.bind (v := none) (reads_pure _) ?_
    refine Reads.bind (reads_int_le 4 time (by omega) (by norm_num; omega)) ?_
    exact Reads.map (f := fun n => PycHeader.mk 3200 [13, 10] none none (some time) n)
      (Reads.map (f := some) (reads_int_le 4 n (by omega) (by norm_num; omega)))
  · rw [pycBytes, if_neg (by decide), if_neg (by decide)]
    simp

/-- Python 3.8, with a hash. -/
example : versionOf 3413 = some 0x30800F0 ∧ PycGood 3413 (.hash true 77) ∧
    PyGood 0x30800F0 (.code true [0, 0, 0, 2, 3, 64] (List.replicate 8 (.text 122 true [97])) 1 [.text 115 false [0, 1]]) := by
  refine ⟨by decide +kernel, ⟨by decide, by norm_num⟩, ?_⟩
  simp [PyGood, PyAllGood, spNumbers, spObjects, spLast, Paired, List.replicate]

end Hachoir.Props

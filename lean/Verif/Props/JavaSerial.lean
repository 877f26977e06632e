import Verif.Formats.JavaSerial
import Verif.Props.Real
import Verif.Props.Bplist
import Verif.Props.Packed

/-!
# C168: serialized Java objects
-/

namespace Hachoir.Props
open Hachoir Hachoir.Formats Hachoir.Formats.JavaSerial Hachoir.Stream Hachoir.Field _root_.Props

/-! ### Specification: Java Object Serialization Specification, chapter 6 -/

/-- A class: its name (none for a class of proxies) and the values of its objects in order, from the first super class on. -/
structure JavaClass where
  name : Option Bytes
  slots : List Step

/-- What a content is as a class. -/
inductive JavaKind where
  | null
  | klass (c : JavaClass)
  | other

/-- The number of resets, and the handles in use: those of classes, and others. -/
structure JavaState where
  resets : Nat
  known : List (Option JavaClass)

/-- A handle more. -/
def JavaState.new (h : JavaState) (c : Option JavaClass) : JavaState := ⟨h.resets, h.known ++ [c]⟩

/-- No handles. -/
def JavaState.clear (h : JavaState) : JavaState := ⟨h.resets + 1, []⟩

/-- A class is known at its handle. -/
def JavaState.know (h : JavaState) (i : Nat) (c : JavaClass) : JavaState := ⟨h.resets, h.known.set i (some c)⟩

/-- What a handle is as a class. -/
def handleKind : Option JavaClass → JavaKind
  | none => .other
  | some c => .klass c

/-- Flags of a class: `SC_ENUM`, `SC_BLOCK_DATA`, `SC_EXTERNALIZABLE`, `SC_SERIALIZABLE`, `SC_WRITE_METHOD`. -/
structure JavaFlags where
  isEnum : Bool
  blockData : Bool
  externalizable : Bool
  serializable : Bool
  writeMethod : Bool

/-- Their byte: 16, 8, 4, 2 and 1. -/
def flagsByte (f : JavaFlags) : UInt8 := UInt8.ofNat (16 * f.isEnum.toNat + 8 * f.blockData.toNat + 4 * f.externalizable.toNat + 2 * f.serializable.toNat + f.writeMethod.toNat)

/-- Their bits. -/
def flagsBits (f : JavaFlags) : List Nat := [0, f.isEnum.toNat, f.blockData.toNat, f.externalizable.toNat, f.serializable.toNat, f.writeMethod.toNat]

/-- `utf`: a text with its length in two bytes. -/
def javaUtf (t : Bytes) : Bytes := beBytes 2 t.length ++ t

/-- A signed number in `n` bytes. -/
def javaInt (n : Nat) (v : Int) : Bytes := beBytes n (v % (256 ^ n : Nat)).toNat

/-- The signed numbers of `n` bytes. -/
def JavaFits (n : Nat) (v : Int) : Prop := -(2 ^ (8 * n - 1) : Nat) ≤ v ∧ v < (2 ^ (8 * n - 1) : Nat)

/-- Values of the primitive types: byte, char, double, float, int, long, short, boolean. -/
inductive JavaPrimitive : Nat → Value → Bytes → Prop where
  | byte (v : Int) (h : JavaFits 1 v) : JavaPrimitive 'B'.toNat (.number v) (javaInt 1 v)
  | char (v : Nat) (h : v < 2 ^ 16) : JavaPrimitive 'C'.toNat (.number v) (beBytes 2 v)
  | double (v : Nat) (h : v < 2 ^ 64) : JavaPrimitive 'D'.toNat (.float v) (beBytes 8 v)
  | float (v : Nat) (h : v < 2 ^ 32) : JavaPrimitive 'F'.toNat (.float v) (beBytes 4 v)
  | int (v : Int) (h : JavaFits 4 v) : JavaPrimitive 'I'.toNat (.number v) (javaInt 4 v)
  | long (v : Int) (h : JavaFits 8 v) : JavaPrimitive 'J'.toNat (.number v) (javaInt 8 v)
  | short (v : Int) (h : JavaFits 2 v) : JavaPrimitive 'S'.toNat (.number v) (javaInt 2 v)
  | boolean (v : Bool) : JavaPrimitive 'Z'.toNat (.flag v) [if v then 1 else 0]

/-- How contents are written: the state before, the content, what it is as a class, the state behind, the bytes. -/
abbrev JavaRel : Type := JavaState → Content → JavaKind → JavaState → Bytes → Prop

/-- Contents up to `endBlockData`; at most as many as the number tells. -/
inductive JavaContents (R : JavaRel) : Nat → JavaState → List Content → JavaState → Bytes → Prop where
  | last {n h k h' b} (hr : R h .endBlock k h' b) : JavaContents R (n + 1) h [.endBlock] h' b
  | more {n h c k h1 b l h' bs} (hr : R h c k h1 b) (hc : c ≠ .endBlock) (hl : JavaContents R n h1 l h' bs) : JavaContents R (n + 1) h (c :: l) h' (b ++ bs)

/-- One value. -/
inductive JavaValue (R : JavaRel) (d : Nat) : JavaState → Step → Value → JavaState → Bytes → Prop where
  | primitive {h t v b} (hp : JavaPrimitive t v b) : JavaValue R d h (.field t) v h b
  | array {h c k h' b} (hr : R h c k h' b) : JavaValue R d h (.field '['.toNat) (.content c) h' b
  | object {h c k h' b} (hr : R h c k h' b) : JavaValue R d h (.field 'L'.toNat) (.content c) h' b
  | contents {h l h' b} (hl : JavaContents R d h l h' b) : JavaValue R d h .contents (.contents l) h' b

/-- The values of an object. -/
inductive JavaValues (R : JavaRel) (d : Nat) : JavaState → List Step → List Value → JavaState → Bytes → Prop where
  | nil {h} : JavaValues R d h [] [] h []
  | cons {h s v h1 b l vs h' bs} (hv : JavaValue R d h s v h1 b) (hl : JavaValues R d h1 l vs h' bs) : JavaValues R d h (s :: l) (v :: vs) h' (b ++ bs)

/-- The type codes of primitive fields. -/
def primitiveCodes : List Char := ['B', 'C', 'D', 'F', 'I', 'J', 'S', 'Z']

/-- The descriptions of fields. -/
inductive JavaFields (R : JavaRel) : JavaState → List FieldDesc → JavaState → Bytes → Prop where
  | nil {h} : JavaFields R h [] h []
  | primitive {h l h' bs} (t : Char) (name : Bytes) (ht : t ∈ primitiveCodes) (hn : name.length < 2 ^ 16) (hl : JavaFields R h l h' bs) :
      JavaFields R h (.mk t.toNat name none :: l) h' (UInt8.ofNat t.toNat :: (javaUtf name ++ bs))
  | object {h c k h1 b l h' bs} (t : Char) (name : Bytes) (ht : t = '[' ∨ t = 'L') (hn : name.length < 2 ^ 16) (hr : R h c k h1 b) (hl : JavaFields R h1 l h' bs) :
      JavaFields R h (.mk t.toNat name (some c) :: l) h' (UInt8.ofNat t.toNat :: (javaUtf name ++ (b ++ bs)))

/-- The slots of a super class. -/
def superSlots : JavaKind → Option (List Step)
  | .null => some []
  | .klass c => some c.slots
  | .other => none

/-- The slots of a class: an externalizable one writes itself, the others the fields of the super classes, their own, and what `writeObject` adds. -/
def javaSlots (f : JavaFlags) (sup : List Step) (fields : List FieldDesc) : List Step :=
  if f.externalizable then [.contents] else sup ++ fields.map (fun x => Step.field x.typecode) ++ if f.writeMethod then [.contents] else []

/-- One content, from those inside of it. -/
inductive JavaContent (R : JavaRel) (d : Nat) : JavaRel where
  | null {h} : JavaContent R d h .null .null h [0x70]
  | reference {h} (i : Nat) (k : Option JavaClass) (hi : h.known[i]? = some k) (hs : 0x7E0000 + i < 2 ^ 31) :
      JavaContent R d h (.reference ((0x7E0000 + i : Nat) : Int)) (handleKind k) h (0x71 :: beBytes 4 (0x7E0000 + i))
  | classDesc {h h1 h2 h3 fields annotation sup k sl b1 b2 b3} (name : Bytes) (uid : Int) (f : JavaFlags) (hn : name.length < 2 ^ 16) (hu : JavaFits 8 uid) (hc : fields.length < 2 ^ 15)
      (hf : JavaFields R (h.new none) fields h1 b1) (ha : JavaContents R d h1 annotation h2 b2) (hs : R h2 sup k h3 b3) (hk : superSlots k = some sl) (hr : h3.resets = h.resets)
      (hx : f.externalizable = true → sl = []) :
      JavaContent R d h (.classDesc name uid (flagsBits f) fields annotation sup) (.klass ⟨some name, javaSlots f sl fields⟩) (h3.know h.known.length ⟨some name, javaSlots f sl fields⟩)
        (0x72 :: (javaUtf name ++ (javaInt 8 uid ++ (flagsByte f :: (beBytes 2 fields.length ++ (b1 ++ (b2 ++ b3)))))))
  | object {h c cl h1 vs h2 b1 b2} (hc : R h c (.klass cl) h1 b1) (hs : cl.slots ≠ []) (hv : JavaValues R d (h1.new none) cl.slots vs h2 b2) :
      JavaContent R d h (.object c vs) .other h2 (0x73 :: (b1 ++ b2))
  | string {h} (t : Bytes) (ht : t.length < 2 ^ 16) : JavaContent R d h (.string t) .other (h.new none) (0x74 :: javaUtf t)
  | array {h c h1 vs h2 b1 b2} (first e : UInt8) (rest : Bytes) (sl : List Step) (hc : R h c (.klass ⟨some (first :: e :: rest), sl⟩) h1 b1) (hl : vs.length < 2 ^ 31)
      (hv : JavaValues R d (h1.new none) (List.replicate vs.length (.field e.toNat)) vs h2 b2) : JavaContent R d h (.array c vs.length vs) .other h2 (0x75 :: (b1 ++ (beBytes 4 vs.length ++ b2)))
  | klass {h c k h1 b} (hc : R h c k h1 b) : JavaContent R d h (.klass c) .other (h1.new none) (0x76 :: b)
  | blockData {h} (b : Bytes) (hb : b.length < 256) : JavaContent R d h (.blockData b) .other h (0x77 :: UInt8.ofNat b.length :: b)
  | endBlock {h} : JavaContent R d h .endBlock .other h [0x78]
  | reset {h} : JavaContent R d h .reset .other h.clear [0x79]
  | blockLong {h} (b : Bytes) (hb : b.length < 2 ^ 32) : JavaContent R d h (.blockLong b) .other h (0x7A :: (beBytes 4 b.length ++ b))
  | exception {h c cl h1 vs h2 b1 b2} (hc : R h.clear c (.klass cl) h1 b1) (hs : cl.slots ≠ []) (hv : JavaValues R d (h1.new none) cl.slots vs h2 b2) :
      JavaContent R d h (.exception (.object c vs)) .other h2.clear (0x7B :: 0x73 :: (b1 ++ b2))
  | proxy {h h2 h3 annotation sup k sl b2 b3} (names : List Bytes) (hn : ∀ t ∈ names, t.length < 2 ^ 16) (hc : names.length < 2 ^ 31)
      (ha : JavaContents R d (h.new none) annotation h2 b2) (hs : R h2 sup k h3 b3) (hk : superSlots k = some sl) (hr : h3.resets = h.resets) :
      JavaContent R d h (.proxy names annotation sup) (.klass ⟨none, sl⟩) (h3.know h.known.length ⟨none, sl⟩)
        (0x7D :: (beBytes 4 names.length ++ (names.flatMap javaUtf ++ (b2 ++ b3))))
  | enumConstant {h c k h1 name k2 h2 b1 b2} (hc : R h c k h1 b1) (hn : R (h1.new none) name k2 h2 b2) : JavaContent R d h (.enumConstant c name) .other h2 (0x7E :: (b1 ++ b2))

/-- Contents of this depth, with at most as many contents up to an end. -/
def JavaWritten : Nat → JavaRel
  | 0 => fun _ _ _ _ _ => False
  | d + 1 => JavaContent (JavaWritten d) d

/-! ### Reading -/

/-- A class as the reader keeps it. -/
def classInfo : JavaClass → Info
  | ⟨some n, l⟩ => .klass n (.ok l)
  | ⟨none, l⟩ => .proxy (.ok l)

/-- A handle as the reader keeps it. -/
def knownInfo : Option JavaClass → Info
  | none => .other
  | some c => classInfo c

/-- A content as a class as the reader keeps it. -/
def kindInfo : JavaKind → Info
  | .null => .null
  | .klass c => classInfo c
  | .other => .other

/-- The state as the reader keeps it. -/
def handlesOf (h : JavaState) : Handles := ⟨h.resets, h.known.map knownInfo⟩

/-- The reader reads what is written. -/
def JavaReads (R : JavaRel) (rd : Contents) : Prop := ∀ h c k h' b, R h c k h' b → Reads (rd (handlesOf h)) ⟨c, kindInfo k, handlesOf h'⟩ b

theorem handles_new (h : JavaState) : (handlesOf h).add .other = handlesOf (h.new none) := by
  simp [handlesOf, Handles.add, JavaState.new, knownInfo]

theorem handles_clear (h : JavaState) : (handlesOf h).reset = handlesOf h.clear := rfl

theorem handles_know (h : JavaState) (i : Nat) (c : JavaClass) : (handlesOf h).finish h.resets i (classInfo c) = handlesOf (h.know i c) := by
  rw [handlesOf, Handles.finish, if_pos rfl, handlesOf, JavaState.know]
  simp only [List.map_set]
  rfl

theorem handles_find (h : JavaState) (i : Nat) (k : Option JavaClass) (hi : h.known[i]? = some k) : (handlesOf h).find ((0x7E0000 + i : Nat) : Int) = kindInfo (handleKind k) := by
  rw [Handles.find, if_neg (by omega)]
  have : (((0x7E0000 + i : Nat) : Int) - 0x7E0000).toNat = i := by omega
  rw [this, handlesOf]
  simp only [List.getElem?_map, hi, Option.map_some, Option.getD_some]
  cases k <;> rfl

theorem reads_java_int (n : Nat) (v : Int) (hn : 0 < n) (h : JavaFits n v) : Reads (Rd.signed n .big) v (javaInt n v) := reads_signed_be n v hn h.1 h.2

theorem reads_java_utf (t : Bytes) (h : t.length < 2 ^ 16) : Reads (Rd.text .big .pascal16 .utf8 none) t (javaUtf t) := reads_pascal16 .utf8 (by decide) t h

theorem is_end (c : Content) : isEnd c = true ↔ c = .endBlock := by
  cases c <;> simp [isEnd]

theorem reads_contents (R : JavaRel) (rd : Contents) (hrd : JavaReads R rd) {d : Nat} {h : JavaState} {l : List Content} {h' : JavaState} {b : Bytes} (w : JavaContents R d h l h' b) :
    ∀ n, d ≤ n → Reads (untilEnd rd n (handlesOf h)) (l, handlesOf h') b := by
  induction w with
  | last hr =>
    intro n hn
    obtain ⟨n, rfl⟩ : ∃ m, n = m + 1 := ⟨n - 1, by omega⟩
    refine (Reads.rbind (f := untilNext (untilEnd rd n)) (hrd _ _ _ _ _ hr) ?_).of_eq rfl (List.append_nil _)
    exact reads_rpure _
  | more hr hc _ ih =>
    intro n hn
    obtain ⟨n, rfl⟩ : ∃ m, n = m + 1 := ⟨n - 1, by omega⟩
    refine Reads.rbind (f := untilNext (untilEnd rd n)) (hrd _ _ _ _ _ hr) ?_
    unfold untilNext
    rw [if_neg (fun e => hc ((is_end _).1 e))]
    exact (Reads.rmap (f := fun r : List Content × Handles => (_ :: r.1, r.2)) (ih n (by omega)))

theorem reads_primitive (rd : Contents) (t : Nat) (v : Value) (b : Bytes) (p : JavaPrimitive t v b) (h : Handles) : Reads (value rd t h) (v, h) b := by
  cases p with
  | byte v hv => exact Reads.rmap (f := fun v => (Value.number v, h)) (reads_java_int 1 v (by decide) hv)
  | char v hv => exact Reads.rmap (f := fun v : Nat => (Value.number v, h)) (reads_int_be 2 v (by decide) (by simpa using hv))
  | double v hv => exact Reads.rmap (f := fun v : Nat => (Value.float v, h)) (reads_int_be 8 v (by decide) (by simpa using hv))
  | float v hv => exact Reads.rmap (f := fun v : Nat => (Value.float v, h)) (reads_int_be 4 v (by decide) (by simpa using hv))
  | int v hv => exact Reads.rmap (f := fun v => (Value.number v, h)) (reads_java_int 4 v (by decide) hv)
  | long v hv => exact Reads.rmap (f := fun v => (Value.number v, h)) (reads_java_int 8 v (by decide) hv)
  | short v hv => exact Reads.rmap (f := fun v => (Value.number v, h)) (reads_java_int 2 v (by decide) hv)
  | boolean v =>
    refine (Reads.rmap (f := fun v : Nat => (Value.flag (v != 0), h)) (reads_byte (if v then 1 else 0) .big (by decide))).of_eq ?_ rfl
    cases v <;> rfl

theorem reads_java_value (R : JavaRel) (rd : Contents) (hrd : JavaReads R rd) {d n : Nat} (hn : d ≤ n) {h : JavaState} {s : Step} {v : Value} {h' : JavaState} {b : Bytes} (w : JavaValue R d h s v h' b) :
    Reads (step rd n s (handlesOf h)) (v, handlesOf h') b := by
  cases w with
  | primitive hp => exact reads_primitive rd _ _ _ hp _
  | array hr => exact Reads.rmap (f := fun g : Got => (Value.content g.content, g.handles)) (hrd _ _ _ _ _ hr)
  | object hr => exact Reads.rmap (f := fun g : Got => (Value.content g.content, g.handles)) (hrd _ _ _ _ _ hr)
  | contents hl => exact Reads.rmap (f := fun r : List Content × Handles => (Value.contents r.1, r.2)) (reads_contents R rd hrd hl n hn)

theorem reads_values (R : JavaRel) (rd : Contents) (hrd : JavaReads R rd) {d n : Nat} (hn : d ≤ n) {h : JavaState} {l : List Step} {vs : List Value} {h' : JavaState} {b : Bytes} (w : JavaValues R d h l vs h' b) :
    Reads (steps rd n l (handlesOf h)) (vs, handlesOf h') b := by
  induction w with
  | nil => exact reads_rpure _
  | cons hv _ ih =>
    refine Reads.rbind (reads_java_value R rd hrd hn hv) ?_
    exact Reads.rmap (f := fun q : List Value × Handles => (_ :: q.1, q.2)) ih

theorem reads_field_head (rd : Contents) (t : Char) (ht : t.toNat < 256) (name : Bytes) (hn : name.length < 2 ^ 16) (h : Handles) (v : FieldDesc × Handles) (bs : Bytes)
    (hc : Reads (fieldClass rd t.toNat name h) v bs) : Reads (fieldDesc rd h) v (UInt8.ofNat t.toNat :: (javaUtf name ++ bs)) := by
  have e : (([UInt8.ofNat t.toNat] : Bytes).headD 0).toNat = t.toNat := by
    show (UInt8.ofNat t.toNat).toNat = _
    rw [UInt8.toNat_ofNat']
    exact Nat.mod_eq_of_lt ht
  unfold fieldDesc
  refine Reads.rbind (xs := [UInt8.ofNat t.toNat]) (v := [UInt8.ofNat t.toNat]) (reads_fixed .big .eightBit (by decide) 1 [UInt8.ofNat t.toNat] rfl (by decide)) ?_
  refine Reads.rbind (reads_java_utf name hn) ?_
  rw [e]
  exact hc

theorem reads_field_descs (R : JavaRel) (rd : Contents) (hrd : JavaReads R rd) {h : JavaState} {l : List FieldDesc} {h' : JavaState} {b : Bytes} (w : JavaFields R h l h' b) :
    Reads (fieldDescs rd l.length (handlesOf h)) (l, handlesOf h') b := by
  induction w with
  | nil => exact reads_rpure _
  | @primitive h l h' bs t name ht hn _ ih =>
    have h1 : t.toNat < 256 ∧ ¬ (t.toNat = 0x5B ∨ t.toNat = 0x4C) := by
      simp only [primitiveCodes, List.mem_cons, List.not_mem_nil, or_false] at ht
      rcases ht with rfl | rfl | rfl | rfl | rfl | rfl | rfl | rfl <;> decide
    have hd : Reads (fieldDesc rd (handlesOf h)) (.mk t.toNat name none, handlesOf h) (UInt8.ofNat t.toNat :: (javaUtf name ++ [])) := by
      refine reads_field_head rd t h1.1 name hn _ _ _ ?_
      rw [fieldClass, if_neg h1.2]
      exact reads_rpure _
    exact (Reads.rbind hd (Reads.rmap (f := fun q : List FieldDesc × Handles => (FieldDesc.mk t.toNat name none :: q.1, q.2)) ih)).of_eq rfl (by simp)
  | @object h c k h1 b l h' bs t name ht hn hr _ ih =>
    have h1' : t.toNat < 256 ∧ (t.toNat = 0x5B ∨ t.toNat = 0x4C) := by
      rcases ht with rfl | rfl <;> decide
    have hd : Reads (fieldDesc rd (handlesOf h)) (.mk t.toNat name (some c), handlesOf h1) (UInt8.ofNat t.toNat :: (javaUtf name ++ b)) := by
      refine reads_field_head rd t h1'.1 name hn _ _ _ ?_
      rw [fieldClass, if_pos h1'.2]
      exact Reads.rmap (f := fun g : Got => (FieldDesc.mk t.toNat name (some g.content), g.handles)) (hrd _ _ _ _ _ hr)
    exact (Reads.rbind hd (Reads.rmap (f := fun q : List FieldDesc × Handles => (FieldDesc.mk t.toNat name (some c) :: q.1, q.2)) ih)).of_eq rfl (by simp)

theorem layout_kind (k : JavaKind) (sl : List Step) (h : superSlots k = some sl) : layoutOf (kindInfo k) = .ok sl := by
  cases k with
  | null => injection h with h; subst h; rfl
  | klass c =>
    injection h with h
    subst h
    obtain ⟨n, l⟩ := c
    cases n <;> rfl
  | other => cases h

theorem own_layout (f : JavaFlags) (k : JavaKind) (sl : List Step) (h : superSlots k = some sl) (fields : List FieldDesc) (hx : f.externalizable = true → sl = []) :
    ownLayout (flagsBits f) fields (kindInfo k) = .ok (javaSlots f sl fields) := by
  obtain ⟨e, b, x, s, w⟩ := f
  unfold ownLayout javaSlots
  rw [layout_kind k sl h]
  simp only at hx ⊢
  cases x with
  | true => simp [flagsBits, hx rfl]
  | false => cases w <;> simp [flagsBits]

theorem reads_java_flags (f : JavaFlags) : Reads (Rd.bits .big [3, 1, 1, 1, 1, 1]) (flagsBits f) [flagsByte f] := by
  obtain ⟨e, b, x, s, w⟩ := f
  have := reads_packed_be 1 [3, 1, 1, 1, 1, 1] (flagsBits ⟨e, b, x, s, w⟩) (by decide) (by decide) (by cases e <;> cases b <;> cases x <;> cases s <;> cases w <;> simp [Fit, flagsBits])
  refine this.of_eq rfl ?_
  cases e <;> cases b <;> cases x <;> cases s <;> cases w <;> decide

theorem reads_count (n v : Nat) (hn : 0 < n) (h : v < 2 ^ (8 * n - 1)) : Reads (Rd.signed n .big) (v : Int) (beBytes n v) := by
  have h256 : (256 : Nat) ^ n = 2 * 2 ^ (8 * n - 1) := by
    rw [← Nat.pow_succ', show (256 : Nat) = 2 ^ 8 from rfl, ← Nat.pow_mul]
    congr 1
    omega
  refine (reads_signed_be n v hn (by omega) (by exact_mod_cast h)).of_eq rfl ?_
  congr 1
  rw [← Int.natCast_mod, Int.toNat_natCast]
  exact Nat.mod_eq_of_lt (by omega)

theorem reads_block (b : Bytes) : Reads (block b.length) b b := by
  unfold block
  by_cases h : b.length = 0
  · rw [if_pos h, List.length_eq_zero_iff.1 h]
    exact reads_rpure _
  · rw [if_neg h]
    exact reads_raw b (by intro e; rw [e] at h; exact h rfl)

theorem reads_object (R : JavaRel) (rd : Contents) (hrd : JavaReads R rd) {d n : Nat} (hn : d ≤ n) {h h1 h2 : JavaState} {c : Content} {cl : JavaClass} {vs : List Value} {b1 b2 : Bytes}
    (hc : R h c (.klass cl) h1 b1) (hs : cl.slots ≠ []) (hv : JavaValues R d (h1.new none) cl.slots vs h2 b2) :
    Reads (object rd n (handlesOf h)) ⟨.object c vs, .other, handlesOf h2⟩ (b1 ++ b2) := by
  refine Reads.rbind (f := objectValues rd n) (hrd _ _ _ _ _ hc) ?_
  have hv' := reads_values R rd hrd hn hv
  unfold objectValues
  simp only [layout_kind (.klass cl) cl.slots rfl]
  obtain ⟨nm, sl⟩ := cl
  cases sl with
  | nil => exact absurd rfl hs
  | cons s l =>
    simp only [handles_new]
    exact Reads.rmap (f := fun r : List Value × Handles => (⟨.object c r.1, .other, r.2⟩ : Got)) hv'

theorem java_step (R : JavaRel) (rd : Contents) (hrd : JavaReads R rd) (d n : Nat) (hn : d ≤ n) (h : JavaState) (c : Content) (k : JavaKind) (h' : JavaState) (b : Bytes) (w : JavaContent R d h c k h' b) :
    Reads (Rd.bind (Rd.int 1 .big) fun t => body rd n t (handlesOf h)) ⟨c, kindInfo k, handlesOf h'⟩ b := by
  have start : ∀ (t : UInt8) (v : Got) (bs : Bytes), Reads (body rd n t.toNat (handlesOf h)) v bs → Reads (Rd.bind (Rd.int 1 .big) fun t => body rd n t (handlesOf h)) v (t :: bs) :=
    fun t v bs hb => Reads.rbind (xs := [t]) (reads_byte t .big (by decide)) hb
  cases w with
  | null => exact start 0x70 _ _ (reads_rpure _)
  | reference i k hi hs =>
    refine start 0x71 _ _ ?_
    refine (Reads.rmap (f := fun v : Int => (⟨.reference v, (handlesOf h).find v, handlesOf h⟩ : Got)) (reads_count 4 (0x7E0000 + i) (by decide) hs)).of_eq ?_ rfl
    rw [handles_find h i k hi]
  | @classDesc _ h1 h2 h3 fields annotation sup k sl b1 b2 b3 name uid f hnm hu hc hf ha hs hk hr hx =>
    refine start 0x72 _ _ ?_
    refine Reads.rbind (reads_java_utf name hnm) ?_
    refine Reads.rbind (reads_java_int 8 uid (by decide) hu) ?_
    refine Reads.rbind (xs := [flagsByte f]) (reads_java_flags f) ?_
    refine Reads.rbind (reads_count 2 fields.length (by decide) hc) ?_
    have hf' := reads_field_descs R rd hrd hf
    rw [← handles_new] at hf'
    refine Reads.rbind (by rw [Int.toNat_natCast]; exact hf') ?_
    refine Reads.rbind (reads_contents R rd hrd ha n hn) ?_
    refine (Reads.rmap (f := fun sup : Got => gotClass (handlesOf h) name uid (flagsBits f) fields annotation sup) (hrd _ _ _ _ _ hs)).of_eq ?_ rfl
    rw [gotClass]
    simp only
    rw [own_layout f k sl hk fields hx, ← handles_know, hr]
    show Got.mk _ _ _ = Got.mk _ _ _
    simp only [handlesOf, List.length_map]
    rfl
  | object hc hs hv => exact start 0x73 _ _ (reads_object R rd hrd hn hc hs hv)
  | string t ht =>
    refine start 0x74 _ _ ?_
    refine (Reads.rmap (f := fun t : Bytes => (⟨.string t, .other, (handlesOf h).add .other⟩ : Got)) (reads_java_utf t ht)).of_eq ?_ rfl
    rw [handles_new]
    rfl
  | @array _ c h1 vs h2 b1 b2 first e rest sl hc hl hv =>
    refine start 0x75 _ _ ?_
    refine Reads.rbind (f := arrayValues rd n) (hrd _ _ _ _ _ hc) ?_
    refine Reads.rbind (reads_count 4 vs.length (by decide) hl) ?_
    have hv' := reads_values R rd hrd hn hv
    rw [← handles_new] at hv'
    simp only [kindInfo, classInfo, elementCode, Int.toNat_natCast]
    exact Reads.rmap (f := fun r : List Value × Handles => (⟨.array c vs.length r.1, .other, r.2⟩ : Got)) hv'
  | @klass _ c k h1 b hc =>
    refine start 0x76 _ _ ?_
    refine (Reads.rmap (f := fun d : Got => (⟨.klass d.content, .other, d.handles.add .other⟩ : Got)) (hrd _ _ _ _ _ hc)).of_eq ?_ rfl
    simp only [handles_new]
    rfl
  | blockData b hb =>
    refine start 0x77 _ _ ?_
    have e : (UInt8.ofNat b.length).toNat = b.length := by
      rw [UInt8.toNat_ofNat']
      exact Nat.mod_eq_of_lt hb
    refine Reads.rbind (xs := [UInt8.ofNat b.length]) (reads_byte _ .big (by decide)) ?_
    rw [e]
    exact Reads.rmap (f := fun b : Bytes => (⟨.blockData b, .other, handlesOf h⟩ : Got)) (reads_block b)
  | endBlock => exact start 0x78 _ _ (reads_rpure _)
  | reset => exact start 0x79 _ _ (reads_rpure _)
  | blockLong b hb =>
    refine start 0x7A _ _ ?_
    refine Reads.rbind (reads_int_be 4 b.length (by decide) (by simpa using hb)) ?_
    exact Reads.rmap (f := fun b : Bytes => (⟨.blockLong b, .other, handlesOf h⟩ : Got)) (reads_block b)
  | @exception _ c cl h1 vs h2 b1 b2 hc hs hv =>
    refine start 0x7B _ _ ?_
    refine Reads.rbind (xs := [0x73]) (reads_byte 0x73 .big (by decide)) ?_
    exact Reads.rmap (f := fun g : Got => (⟨.exception g.content, .other, g.handles.reset⟩ : Got)) (reads_object R rd hrd hn hc hs hv)
  | @proxy _ h2 h3 annotation sup k sl b2 b3 names hnm hc ha hs hk hr =>
    refine start 0x7D _ _ ?_
    refine Reads.rbind (reads_count 4 names.length (by decide) hc) ?_
    refine Reads.rbind (by rw [Int.toNat_natCast]; exact reads_times _ javaUtf names (fun t ht => reads_java_utf t (hnm t ht))) ?_
    have ha' := reads_contents R rd hrd ha n hn
    rw [← handles_new] at ha'
    refine Reads.rbind ha' ?_
    refine (Reads.rmap (f := fun sup : Got => gotProxy (handlesOf h) names annotation sup) (hrd _ _ _ _ _ hs)).of_eq ?_ rfl
    rw [gotProxy]
    simp only
    rw [layout_kind k sl hk, ← handles_know, hr]
    simp only [handlesOf, List.length_map]
    rfl
  | @enumConstant _ c k h1 name k2 h2 b1 b2 hc hnm =>
    refine start 0x7E _ _ ?_
    refine Reads.rbind (hrd _ _ _ _ _ hc) ?_
    have := hrd _ _ _ _ _ hnm
    rw [← handles_new] at this
    exact Reads.rmap (f := fun g : Got => (⟨.enumConstant c g.content, .other, g.handles⟩ : Got)) this

/-- **C168.** Every content is read as it was written, whatever it contains, with the handles and classes before it. -/
theorem C168_content_partial : ∀ (d : Nat) (n : Nat), d ≤ n → JavaReads (JavaWritten d) (content n)
  | 0, _, _ => fun _ _ _ _ _ w => w.elim
  | d + 1, 0, h => by omega
  | d + 1, n + 1, hn => fun h c k h' b w => java_step (JavaWritten d) (content n) (C168_content_partial d n (by omega)) d n (by omega) h c k h' b w

/-- The objects of a file. -/
inductive JavaObjects (R : JavaRel) : JavaState → List Content → Bytes → Prop where
  | nil {h} : JavaObjects R h [] []
  | cons {h c k h1 b l bs} (hr : R h c k h1 b) (hl : JavaObjects R h1 l bs) : JavaObjects R h (c :: l) (b ++ bs)

theorem java_nonempty (R : JavaRel) (d : Nat) {h : JavaState} {c : Content} {k : JavaKind} {h' : JavaState} {b : Bytes} (w : JavaContent R d h c k h' b) : b ≠ [] := by
  cases w <;> simp

theorem reads_objects (d : Nat) (rd : Contents) (hrd : JavaReads (JavaWritten d) rd) {h : JavaState} {l : List Content} {b : Bytes} (w : JavaObjects (JavaWritten d) h l b) :
    ∀ n, l.length < n → ReadsAll (objects rd n (handlesOf h)) l b := by
  induction w with
  | nil =>
    intro n hn
    obtain ⟨n, rfl⟩ : ∃ m, n = m + 1 := ⟨n - 1, by omega⟩
    exact ReadsAll.at_eof (Reads.all (reads_rpure _))
  | @cons h c k h1 b l bs hr _ ih =>
    intro n hn
    obtain ⟨n, rfl⟩ : ∃ m, n = m + 1 := ⟨n - 1, by omega⟩
    have hne : b ≠ [] := by
      cases d with
      | zero => exact hr.elim
      | succ d => exact java_nonempty _ _ hr
    refine ReadsAll.not_eof (by simp [hne]) ?_
    simp only [Bool.false_eq_true, if_false]
    refine Reads.bind_all (hrd _ _ _ _ _ hr) ?_
    intro data s hs k hp
    have := ih n (by simpa using hn) data s hs k hp
    show Rd.bind (objects rd n (handlesOf h1)) _ s _ _ = _
    rw [Rd.bind, this]
    rfl

/-- **C168.** A file is read: its version and all its objects (for every bound on the recursion that is large enough). -/
theorem C168_file_partial (d : Nat) (l : List Content) (b : Bytes) (w : JavaObjects (JavaWritten d) ⟨0, []⟩ l b) (n : Nat) (hd : d ≤ n) (hl : l.length < n) :
    ReadsAll (file n) (0xACED, 5, l) ([0xAC, 0xED, 0, 5] ++ b) := by
  unfold file
  refine Reads.bind_all (xs := [0xAC, 0xED]) (ys := [0, 5] ++ b) (reads_int_be 2 0xACED (by decide) (by decide)) ?_
  refine Reads.bind_all (xs := [0, 5]) (reads_int_be 2 5 (by decide) (by decide)) ?_
  intro data s hs k hp
  have := reads_objects d (content n) (C168_content_partial d n hd) w n hl data s hs k hp
  show Rd.bind (objects (content n) n (handlesOf ⟨0, []⟩)) _ s _ _ = _
  rw [Rd.bind, this]
  rfl

/-! ### Example: two points, the second with a reference to the class of the first -/

/-- `class P { int x; }`. -/
def pointClass : JavaClass := ⟨some [0x50], [.field 0x49]⟩

/-- Its description. -/
def pointDesc : Content := .classDesc [0x50] 7 (flagsBits ⟨false, false, false, true, false⟩) [.mk 0x49 [0x78] none] [.endBlock] .null

/-- Its bytes. -/
def pointBytes : Bytes := [0x72, 0, 1, 0x50, 0, 0, 0, 0, 0, 0, 0, 7, 2, 0, 1, 0x49, 0, 1, 0x78, 0x78, 0x70]

theorem point_desc : JavaWritten 2 ⟨0, []⟩ pointDesc (.klass pointClass) ⟨0, [some pointClass]⟩ pointBytes :=
  JavaContent.classDesc (h := ⟨0, []⟩) (h1 := ⟨0, [none]⟩) (h2 := ⟨0, [none]⟩) (h3 := ⟨0, [none]⟩) (sl := []) (k := .null) (b1 := [0x49, 0, 1, 0x78]) (b2 := [0x78]) (b3 := [0x70])
    [0x50] 7 ⟨false, false, false, true, false⟩ (by decide) (by unfold JavaFits; decide) (by decide)
    (.primitive 'I' [0x78] (by decide) (by decide) .nil) (.last (n := 0) (k := .other) .endBlock) .null rfl rfl (by decide)

theorem point_objects : JavaObjects (JavaWritten 3) ⟨0, []⟩ [.object pointDesc [.number 258], .object (.reference 0x7E0000) [.number (-1)]]
    ((0x73 :: (pointBytes ++ [0, 0, 1, 2])) ++ ([0x73, 0x71, 0, 0x7E, 0, 0, 0xFF, 0xFF, 0xFF, 0xFF] ++ [])) := by
  refine .cons (k := .other) (h1 := ⟨0, [some pointClass, none]⟩) ?_ (.cons (k := .other) (h1 := ⟨0, [some pointClass, none, none]⟩) ?_ .nil)
  · exact JavaContent.object (b1 := pointBytes) (b2 := [0, 0, 1, 2]) point_desc (by decide)
      (.cons (b := [0, 0, 1, 2]) (bs := []) (.primitive (.int 258 (by unfold JavaFits; decide))) .nil)
  · exact JavaContent.object (cl := pointClass) (h1 := ⟨0, [some pointClass, none]⟩) (b1 := [0x71, 0, 0x7E, 0, 0]) (b2 := [0xFF, 0xFF, 0xFF, 0xFF])
      (.reference 0 (some pointClass) rfl (by decide)) (by decide)
      (.cons (b := [0xFF, 0xFF, 0xFF, 0xFF]) (bs := []) (.primitive (.int (-1) (by unfold JavaFits; decide))) .nil)

example : ReadsAll (file 100) (0xACED, 5, [.object pointDesc [.number 258], .object (.reference 0x7E0000) [.number (-1)]])
    ([0xAC, 0xED, 0, 5] ++ ((0x73 :: (pointBytes ++ [0, 0, 1, 2])) ++ ([0x73, 0x71, 0, 0x7E, 0, 0, 0xFF, 0xFF, 0xFF, 0xFF] ++ []))) :=
  C168_file_partial 3 _ _ point_objects 100 (by decide) (by decide)

/-! ### What is read wrong -/

/-- **C168 (disagreement).**  A text of 65536 bytes or more (`TC_LONGSTRING`) raises a TypeError. -/
theorem C168_long_string (n : Nat) (h : Handles) (size : Int) (hs : JavaFits 8 size) : Fails (content (n + 1) h) .type (0x7C :: javaInt 8 size) := by
  refine Reads.fails (xs := [0x7C]) (r := Rd.int 1 .big) (f := fun t => body (content n) n t h) (reads_byte 0x7C .big (by decide)) ?_
  have := Reads.fails (r := Rd.signed 8 .big) (f := fun _ => (Rd.fail .type : Rd Got)) (reads_java_int 8 size (by decide) hs) (fails_fail .type)
  rwa [List.append_nil] at this

/-- **C168 (disagreement).**  Nothing behind an object without values is read: the object takes the rest of the file. -/
theorem C168_empty (d n : Nat) (hn : d ≤ n) (h h1 : JavaState) (c : Content) (cl : JavaClass) (b : Bytes) (hc : JavaWritten d h c (.klass cl) h1 b) (hs : cl.slots = []) (x : UInt8) :
    Fails (content (n + 1) (handlesOf h)) .stopIteration (0x73 :: (b ++ [x])) := by
  refine Reads.fails (xs := [0x73]) (r := Rd.int 1 .big) (f := fun t => body (content n) n t (handlesOf h)) (reads_byte 0x73 .big (by decide)) ?_
  refine Reads.fails (r := content n (handlesOf h)) (f := objectValues (content n) n) (C168_content_partial d n hn _ _ _ _ _ hc) ?_
  intro data s hds k stop hp hst
  unfold objectValues
  simp only [layout_kind (.klass cl) [] (by rw [superSlots, hs])]
  rw [noValues, Rd.bind, Rd.eof, decide_eq_false (by simp only [List.length_singleton] at hst; omega)]
  rfl

/-- An object without values at the end of the file is read. -/
theorem C168_empty_last (d n : Nat) (hn : d ≤ n) (h h1 : JavaState) (c : Content) (cl : JavaClass) (b : Bytes) (hc : JavaWritten d h c (.klass cl) h1 b) (hs : cl.slots = []) :
    ReadsAll (content (n + 1) (handlesOf h)) ⟨.object c [], .other, handlesOf (h1.new none)⟩ (0x73 :: b) := by
  refine Reads.bind_all (xs := [0x73]) (r := Rd.int 1 .big) (f := fun t => body (content n) n t (handlesOf h)) (reads_byte 0x73 .big (by decide)) ?_
  have := Reads.bind_all (ys := []) (w := (⟨.object c [], .other, handlesOf (h1.new none)⟩ : Got)) (r := content n (handlesOf h)) (f := objectValues (content n) n) (C168_content_partial d n hn _ _ _ _ _ hc) (by
    unfold objectValues
    simp only [layout_kind (.klass cl) [] (by rw [superSlots, hs])]
    rw [← handles_new]
    exact ReadsAll.at_eof (Reads.all (reads_rpure _)))
  rwa [List.append_nil] at this

/-- **C168 (disagreement).**  An externalizable class writes all of its objects itself.  The reader takes the fields of its super class before: of an object that wrote the bytes 1 and 2,
an `int` of the super class is told that is not there, and the bytes are lost. -/
theorem C168_external_wrong (name : Bytes) (f : JavaFlags) (hx : f.externalizable = true) (fields : List FieldDesc) (sup : Bytes) (n : Nat) (h : JavaState) :
    javaSlots f [.field 0x49] fields = [.contents] ∧
    layoutOf (.klass name (ownLayout (flagsBits f) fields (.klass sup (.ok [.field 0x49])))) = .ok [.field 0x49, .contents] ∧
    JavaValues (JavaWritten 1) 2 h [.contents] [.contents [.blockData [1, 2], .endBlock]] h [0x77, 2, 1, 2, 0x78] ∧
    Reads (steps (content (n + 1)) (n + 2) [.field 0x49, .contents] (handlesOf h)) ([.number 0x77020102, .contents [.endBlock]], handlesOf h) [0x77, 2, 1, 2, 0x78] := by
  refine ⟨by rw [javaSlots, if_pos hx], ?_, ?_, ?_⟩
  · obtain ⟨e, b, x, s, w⟩ := f
    simp only at hx
    subst hx
    rfl
  · exact .cons (b := [0x77, 2, 1, 2, 0x78]) (bs := []) (.contents (.more (n := 1) (b := [0x77, 2, 1, 2]) (bs := [0x78]) (k := .other) (h1 := h) (.blockData [1, 2] (by decide)) (by simp) (.last (n := 0) (k := .other) .endBlock))) .nil
  · exact reads_values (JavaWritten 1) (content (n + 1)) (C168_content_partial 1 (n + 1) (by omega)) (d := 1) (by omega)
      (.cons (b := [0x77, 2, 1, 2]) (bs := [0x78]) (.primitive (.int 0x77020102 (by unfold JavaFits; decide))) (.cons (b := [0x78]) (bs := []) (.contents (.last (n := 0) (k := .other) .endBlock)) .nil))

end Hachoir.Props

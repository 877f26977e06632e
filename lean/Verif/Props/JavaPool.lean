import Verif.Formats.JavaPool
import Verif.Props.JavaDescriptor
import Verif.Props.Exif
import Verif.Props.StringField

/-!
# C89: the constant pool of a Java class
-/

set_option linter.unusedVariables false

namespace Hachoir.Props
open Hachoir Hachoir.Stream Hachoir.Field Hachoir.Formats.Java Spec

/-! ### Constants as bytes (JVM specification, 4.4) -/

/-- A number of `n` bytes, most significant first. -/
def Big (n v : Nat) (bs : Bytes) : Prop := bs.length = n ∧ ofBytesBE bs = v

inductive ConstBytes (decode : Bytes → Str) : Const → Bytes → Prop where
  | utf8 (len content : Bytes) (h : Big 2 content.length len) :
      ConstBytes decode (.utf8 (if content = [] then [] else decode content)) (1 :: (len ++ content))
  | integer (v : Nat) (bs : Bytes) (h : Big 4 v bs) : ConstBytes decode (.integer (twosComplement 32 v)) (3 :: bs)
  | float (bs : Bytes) (h : bs.length = 4) : ConstBytes decode (.float bs) (4 :: bs)
  | long (v : Nat) (bs : Bytes) (h : Big 8 v bs) : ConstBytes decode (.long (twosComplement 64 v)) (5 :: bs)
  | double (bs : Bytes) (h : bs.length = 8) : ConstBytes decode (.double bs) (6 :: bs)
  | cls (i : Nat) (bs : Bytes) (h : Big 2 i bs) : ConstBytes decode (.cls i) (7 :: bs)
  | string (i : Nat) (bs : Bytes) (h : Big 2 i bs) : ConstBytes decode (.string i) (8 :: bs)
  | field (i j : Nat) (a b : Bytes) (ha : Big 2 i a) (hb : Big 2 j b) : ConstBytes decode (.ref 9 i j) (9 :: (a ++ b))
  | method (i j : Nat) (a b : Bytes) (ha : Big 2 i a) (hb : Big 2 j b) : ConstBytes decode (.ref 10 i j) (10 :: (a ++ b))
  | interface (i j : Nat) (a b : Bytes) (ha : Big 2 i a) (hb : Big 2 j b) : ConstBytes decode (.ref 11 i j) (11 :: (a ++ b))
  | nameType (i j : Nat) (a b : Bytes) (ha : Big 2 i a) (hb : Big 2 j b) : ConstBytes decode (.nameType i j) (12 :: (a ++ b))
  | handle (kind : UInt8) (i : Nat) (bs : Bytes) (hk : 1 ≤ kind.toNat ∧ kind.toNat ≤ 9) (h : Big 2 i bs) :
      ConstBytes decode (.handle kind.toNat i) (15 :: kind :: bs)
  | methodType (i : Nat) (bs : Bytes) (h : Big 2 i bs) : ConstBytes decode (.methodType i) (16 :: bs)
  | dynamic (i j : Nat) (a b : Bytes) (ha : Big 2 i a) (hb : Big 2 j b) : ConstBytes decode (.dynamic 17 i j) (17 :: (a ++ b))
  | invoke (i j : Nat) (a b : Bytes) (ha : Big 2 i a) (hb : Big 2 j b) : ConstBytes decode (.dynamic 18 i j) (18 :: (a ++ b))
  | module' (i : Nat) (bs : Bytes) (h : Big 2 i bs) : ConstBytes decode (.unit 19 i) (19 :: bs)
  | package (i : Nat) (bs : Bytes) (h : Big 2 i bs) : ConstBytes decode (.unit 20 i) (20 :: bs)

/-- All constants, one behind the other. -/
inductive PoolBytes (decode : Bytes → Str) : List Const → Bytes → Prop where
  | nil : PoolBytes decode [] []
  | cons (c : Const) (cs : List Const) (a b : Bytes) (h : ConstBytes decode c a) (hs : PoolBytes decode cs b) :
      PoolBytes decode (c :: cs) (a ++ b)

/-- How many numbers a constant takes (4.4.5). -/
def slots : Const → Nat
  | .long _ => 2
  | .double _ => 2
  | _ => 1

/-- The constant with a number. -/
def At (cs : List Const) (i : Nat) (c : Const) : Prop := ∃ a b, cs = a ++ c :: b ∧ i = 1 + (a.map slots).sum

/-! ### Reading -/

theorem read_big (data : Bytes) (s : InputStream) (hs : stringInputStream data = .ok s) (k n v : Nat) (bs : Bytes)
    (h : Big n v bs) (h0 : 0 < n) (hp : bs <+: data.drop k) (m : Nat) (hm : m = 8 * n) (ad : Int) (had : ad = (8 * k : Nat)) :
    readBits s ad m .big = .ok v := by
  obtain ⟨hl, hv⟩ := h
  exact read_number data s hs .big k v bs (ne_nil_of_length hl h0) (by simp [numberIn, hv]) hp m (by rw [hl, hm]) ad had

theorem read_big_signed (data : Bytes) (s : InputStream) (hs : stringInputStream data = .ok s) (k n v : Nat) (bs : Bytes)
    (h : Big n v bs) (h0 : 0 < n) (hp : bs <+: data.drop k) (m : Nat) (hm : m = 8 * n) (ad : Int) (had : ad = (8 * k : Nat)) :
    readInteger s ad true m .big = .ok (twosComplement m v) := by
  obtain ⟨hl, hv⟩ := h
  exact read_signed data s hs .big k v bs (ne_nil_of_length hl h0) (by simp [numberIn, hv]) hp m (by rw [hl, hm]) ad had

theorem big_byte (b : UInt8) : Big 1 b.toNat [b] := ⟨rfl, by simp [ofBytesBE]⟩

theorem tail_prefix {b : UInt8} {bs data : Bytes} {k : Nat} (h : (b :: bs) <+: data.drop k) : bs <+: data.drop (k + 1) :=
  drop_prefix (xs := [b]) h

theorem readIndex_eq (data : Bytes) (s : InputStream) (hs : stringInputStream data = .ok s) (k i : Nat) (t : UInt8) (bs : Bytes)
    (h : Big 2 i bs) (hp : (t :: bs) <+: data.drop k) (f : Nat → Const) : readIndex s (8 * k) f = .ok (f i, 24) := by
  unfold readIndex
  rw [read_big data s hs (k + 1) 2 i bs h (by omega) (tail_prefix hp) 16 rfl _ (by omega)]

theorem readIndexes_eq (data : Bytes) (s : InputStream) (hs : stringInputStream data = .ok s) (k i j : Nat) (t : UInt8) (a b : Bytes)
    (ha : Big 2 i a) (hb : Big 2 j b) (hp : (t :: (a ++ b)) <+: data.drop k) (f : Nat → Nat → Const) :
    readIndexes s (8 * k) f = .ok (f i j, 40) := by
  unfold readIndexes
  have hp1 := tail_prefix hp
  have hp2 := drop_prefix hp1
  rw [ha.1] at hp2
  rw [read_big data s hs (k + 1) 2 i a ha (by omega) (prefix_left hp1) 16 rfl _ (by omega)]
  simp only
  rw [read_big data s hs (k + 1 + 2) 2 j b hb (by omega) hp2 16 rfl _ (by omega)]

theorem refKind_some (k : Nat) (h : 1 ≤ k ∧ k ≤ 9) : ∃ p, refKind k = some p := by
  obtain ⟨h1, h2⟩ := h
  have : k = 1 ∨ k = 2 ∨ k = 3 ∨ k = 4 ∨ k = 5 ∨ k = 6 ∨ k = 7 ∨ k = 8 ∨ k = 9 := by omega
  rcases this with rfl | rfl | rfl | rfl | rfl | rfl | rfl | rfl | rfl <;> exact ⟨_, rfl⟩

theorem readConst_eq (decode : Bytes → Str) (data : Bytes) (s : InputStream) (hs : stringInputStream data = .ok s) (k : Nat)
    (c : Const) (bs : Bytes) (h : ConstBytes decode c bs) (hp : bs <+: data.drop k) :
    readConst decode s (8 * k) = .ok (c, 8 * bs.length) := by
  have tagOf : ∀ (t : UInt8) (rest : Bytes), (t :: rest) <+: data.drop k → readBits s ((8 * k : Nat) : Int) 8 .big = .ok t.toNat := by
    intro t rest h
    exact read_big data s hs k 1 t.toNat [t] (big_byte t) (by omega) (prefix_left (xs := [t]) h) 8 rfl _ rfl
  unfold readConst
  cases h with
  | utf8 len content h =>
    rw [tagOf _ _ hp]
    have hp1 := tail_prefix hp
    obtain ⟨rest, hrest⟩ := hp1
    obtain ⟨e1, e2⟩ := C50_pascal_partial hs .big (by simp) (k + 1) .pascal16 2 rfl len content rest h.1
      (by rw [← hrest, List.append_assoc]) (by simp [prefixNumber, h.2]) .utf8 (by simp)
    rw [show 8 * (k + 1) = 8 * k + 8 by omega] at e1 e2
    simp only [show UInt8.toNat 1 = 1 from rfl, e1]
    unfold stringValue
    rw [e2]
    cases content with
    | nil =>
      have := h.1
      simp only [Except.ok.injEq, Prod.mk.injEq, if_true, true_and, List.length_cons, List.length_append, List.length_nil]
      omega
    | cons x xs =>
      have := h.1
      simp only [Except.ok.injEq, Prod.mk.injEq, textValue, List.length_cons, List.length_append, reduceCtorEq, if_false, true_and]
      omega
  | integer v bs h =>
    rw [tagOf _ _ hp]
    simp only [show UInt8.toNat 3 = 3 from rfl]
    rw [read_big_signed data s hs (k + 1) 4 v bs h (by omega) (tail_prefix hp) 32 rfl _ (by omega)]
    simp [h.1]
  | float bs h =>
    rw [tagOf _ _ hp]
    simp only [show UInt8.toNat 4 = 4 from rfl]
    have := readBytes_prefix data s hs (k + 1) bs (tail_prefix hp)
    rw [h, show 8 * (k + 1) = 8 * k + 8 by omega] at this
    rw [this]
    simp [h]
  | long v bs h =>
    rw [tagOf _ _ hp]
    simp only [show UInt8.toNat 5 = 5 from rfl]
    rw [read_big_signed data s hs (k + 1) 8 v bs h (by omega) (tail_prefix hp) 64 rfl _ (by omega)]
    simp [h.1]
  | double bs h =>
    rw [tagOf _ _ hp]
    simp only [show UInt8.toNat 6 = 6 from rfl]
    have := readBytes_prefix data s hs (k + 1) bs (tail_prefix hp)
    rw [h, show 8 * (k + 1) = 8 * k + 8 by omega] at this
    rw [this]
    simp [h]
  | handle kind i bs hk h =>
    rw [tagOf _ _ hp]
    simp only [show UInt8.toNat 15 = 15 from rfl]
    have hp1 := tail_prefix hp
    rw [read_big data s hs (k + 1) 1 kind.toNat [kind] (big_byte kind) (by omega) (prefix_left (xs := [kind]) hp1) 8 rfl _ (by omega)]
    obtain ⟨p, hk'⟩ := refKind_some _ hk
    simp only [hk']
    rw [read_big data s hs (k + 1 + 1) 2 i bs h (by omega) (tail_prefix hp1) 16 rfl _ (by omega)]
    simp [h.1]
  | cls i bs h =>
    rw [tagOf _ _ hp]
    simp only [show UInt8.toNat 7 = 7 from rfl]
    rw [readIndex_eq data s hs k i _ bs h hp]
    simp [h.1]
  | string i bs h =>
    rw [tagOf _ _ hp]
    simp only [show UInt8.toNat 8 = 8 from rfl]
    rw [readIndex_eq data s hs k i _ bs h hp]
    simp [h.1]
  | methodType i bs h =>
    rw [tagOf _ _ hp]
    simp only [show UInt8.toNat 16 = 16 from rfl]
    rw [readIndex_eq data s hs k i _ bs h hp]
    simp [h.1]
  | module' i bs h =>
    rw [tagOf _ _ hp]
    simp only [show UInt8.toNat 19 = 19 from rfl]
    rw [readIndex_eq data s hs k i _ bs h hp]
    simp [h.1]
  | package i bs h =>
    rw [tagOf _ _ hp]
    simp only [show UInt8.toNat 20 = 20 from rfl]
    rw [readIndex_eq data s hs k i _ bs h hp]
    simp [h.1]
  | field i j a b ha hb =>
    rw [tagOf _ _ hp]
    simp only [show UInt8.toNat 9 = 9 from rfl]
    rw [readIndexes_eq data s hs k i j _ a b ha hb hp]
    simp [ha.1, hb.1]
  | method i j a b ha hb =>
    rw [tagOf _ _ hp]
    simp only [show UInt8.toNat 10 = 10 from rfl]
    rw [readIndexes_eq data s hs k i j _ a b ha hb hp]
    simp [ha.1, hb.1]
  | interface i j a b ha hb =>
    rw [tagOf _ _ hp]
    simp only [show UInt8.toNat 11 = 11 from rfl]
    rw [readIndexes_eq data s hs k i j _ a b ha hb hp]
    simp [ha.1, hb.1]
  | nameType i j a b ha hb =>
    rw [tagOf _ _ hp]
    simp only [show UInt8.toNat 12 = 12 from rfl]
    rw [readIndexes_eq data s hs k i j _ a b ha hb hp]
    simp [ha.1, hb.1]
  | dynamic i j a b ha hb =>
    rw [tagOf _ _ hp]
    simp only [show UInt8.toNat 17 = 17 from rfl]
    rw [readIndexes_eq data s hs k i j _ a b ha hb hp]
    simp [ha.1, hb.1]
  | invoke i j a b ha hb =>
    rw [tagOf _ _ hp]
    simp only [show UInt8.toNat 18 = 18 from rfl]
    rw [readIndexes_eq data s hs k i j _ a b ha hb hp]
    simp [ha.1, hb.1]

/-- The constants with their numbers. -/
def numberedConsts : Nat → List Const → List (Nat × Const)
  | _, [] => []
  | i, c :: cs => (i, c) :: numberedConsts (i + slots c) cs

theorem slots_eq {decode : Bytes → Str} {c : Const} {bs : Bytes} (h : ConstBytes decode c bs) (i : Nat) :
    (if c.tag = 5 ∨ c.tag = 6 then i + 2 else i + 1) = i + slots c := by
  cases h <;> simp [Const.tag, slots]

theorem slots_pos (c : Const) : 1 ≤ slots c := by cases c <;> simp [slots]

theorem readPool_eq (decode : Bytes → Str) (data : Bytes) (s : InputStream) (hs : stringInputStream data = .ok s) (count : Nat) :
    ∀ (cs : List Const) (bs : Bytes) (k i n : Nat), PoolBytes decode cs bs → bs <+: data.drop k →
      i + (cs.map slots).sum = count → count ≤ i + n →
      readPool decode s count n i (8 * k) = .ok (numberedConsts i cs, 8 * (k + bs.length)) := by
  intro cs
  induction cs with
  | nil =>
    intro bs k i n h hp hc hn
    cases h
    simp only [List.map_nil, List.sum_nil] at hc
    cases n with
    | zero => rfl
    | succ n => rw [readPool, if_neg (by omega)]; rfl
  | cons c cs ih =>
    intro bs k i n h hp hc hn
    cases h with
    | cons _ _ a b h hb =>
      simp only [List.map_cons, List.sum_cons] at hc
      have h1 := slots_pos c
      obtain ⟨n, rfl⟩ : ∃ m, n = m + 1 := ⟨n - 1, by omega⟩
      rw [readPool, if_pos (by omega), readConst_eq decode data s hs k c a h (prefix_left hp)]
      simp only [slots_eq h]
      rw [show 8 * k + 8 * a.length = 8 * (k + a.length) by omega,
        ih b (k + a.length) (i + slots c) n hb (drop_prefix hp) (by omega) (by omega)]
      simp only [List.length_append, Except.ok.injEq, Prod.mk.injEq]
      exact ⟨rfl, by omega⟩

theorem numberedConsts_snd (cs : List Const) : ∀ i, (numberedConsts i cs).map Prod.snd = cs := by
  induction cs with
  | nil => intro i; rfl
  | cons c cs ih => intro i; rw [numberedConsts, List.map_cons, ih]

theorem numberedConsts_mem (cs : List Const) : ∀ (i j : Nat) (c : Const), (j, c) ∈ numberedConsts i cs ↔
    ∃ a b, cs = a ++ c :: b ∧ j = i + (a.map slots).sum := by
  induction cs with
  | nil => intro i j c; simp [numberedConsts]
  | cons d cs ih =>
    intro i j c
    rw [numberedConsts, List.mem_cons, ih]
    constructor
    · rintro (h | ⟨a, b, h1, h2⟩)
      · simp only [Prod.mk.injEq] at h
        exact ⟨[], cs, by rw [h.2]; rfl, by simp [h.1]⟩
      · exact ⟨d :: a, b, by rw [h1]; rfl, by simp only [List.map_cons, List.sum_cons]; omega⟩
    · rintro ⟨a, b, h1, h2⟩
      cases a with
      | nil =>
        simp only [List.nil_append, List.cons.injEq] at h1
        left
        simp only [List.map_nil, List.sum_nil] at h2
        rw [h1.1, h2]; rfl
      | cons x a =>
        simp only [List.cons_append, List.cons.injEq] at h1
        right
        simp only [List.map_cons, List.sum_cons] at h2
        rw [← h1.1] at h2
        exact ⟨a, b, h1.2, by omega⟩

theorem numberedConsts_lookup (cs : List Const) : ∀ (i j : Nat) (c : Const), (numberedConsts i cs).lookup j = some c ↔ (j, c) ∈ numberedConsts i cs := by
  induction cs with
  | nil => intro i j c; simp [numberedConsts]
  | cons d cs ih =>
    intro i j c
    rw [numberedConsts, List.lookup_cons, List.mem_cons]
    by_cases hj : j = i
    · subst hj
      simp only [beq_self_eq_true, Option.some.injEq, Prod.mk.injEq, true_and]
      constructor
      · intro h; exact .inl h.symm
      · rintro (h | h)
        · exact h.symm
        · obtain ⟨a, b, _, h2⟩ := (numberedConsts_mem cs _ _ _).1 h
          have := slots_pos d
          omega
    · have : (j == i) = false := by simpa using hj
      simp only [this, ih, Prod.mk.injEq, hj, false_and, false_or]

/-- C89: the constants of a pool are read as they are stored, each with its number; `long` and
`double` constants take two. -/
theorem C89_read (decode : Bytes → Str) (data : Bytes) (s : InputStream) (hs : stringInputStream data = .ok s) (k : Nat)
    (cs : List Const) (bs : Bytes) (h : PoolBytes decode cs bs) (hp : bs <+: data.drop k) :
    ∃ entries, readPool decode s (1 + (cs.map slots).sum) (1 + (cs.map slots).sum) 1 (8 * k) = .ok (entries, 8 * (k + bs.length)) ∧
      entries.map Prod.snd = cs ∧ ∀ i c, (i, c) ∈ entries ↔ At cs i c :=
  ⟨_, readPool_eq decode data s hs _ cs bs k 1 _ h hp rfl (by omega), numberedConsts_snd cs 1, fun i c => numberedConsts_mem cs 1 i c⟩

/-- C89: an index finds the constant with its number, if it has one of the types; otherwise there
is an error: for zero, for numbers behind the end, for the second number of a `long`. -/
theorem C89_entry (decode : Bytes → Str) (data : Bytes) (s : InputStream) (hs : stringInputStream data = .ok s) (k : Nat)
    (cs : List Const) (bs : Bytes) (h : PoolBytes decode cs bs) (hp : bs <+: data.drop k) (entries : List (Nat × Const)) (last : Nat)
    (hr : readPool decode s (1 + (cs.map slots).sum) (1 + (cs.map slots).sum) 1 (8 * k) = .ok (entries, last))
    (types : List Nat) (i : Nat) (c : Const) :
    Pool.entry ⟨entries, 1 + (cs.map slots).sum⟩ types i = .ok c ↔ At cs i c ∧ c.tag ∈ types := by
  rw [readPool_eq decode data s hs _ cs bs k 1 _ h hp rfl (by omega)] at hr
  simp only [Except.ok.injEq, Prod.mk.injEq] at hr
  rw [← hr.1]
  have hmem : ∀ d, (numberedConsts 1 cs).lookup i = some d ↔ At cs i d := fun d =>
    (numberedConsts_lookup cs 1 i d).trans (numberedConsts_mem cs 1 i d)
  unfold Pool.entry
  by_cases hi : i < 1 + (cs.map slots).sum
  · simp only [hi, not_true_eq_false, if_false]
    cases hl : (numberedConsts 1 cs).lookup i with
    | none =>
      simp only [reduceCtorEq, false_iff, not_and]
      intro ha
      rw [(hmem c).2 ha] at hl
      simp at hl
    | some d =>
      have hd := (hmem d).1 hl
      simp only
      constructor
      · intro hx
        split at hx
        · simp only [Except.ok.injEq] at hx
          subst hx
          exact ⟨hd, by assumption⟩
        · simp at hx
      · rintro ⟨ha, ht⟩
        have := (hmem c).2 ha
        rw [hl] at this
        simp only [Option.some.injEq] at this
        subst this
        rw [if_pos ht]
  · simp only [hi, not_false_eq_true, if_true, reduceCtorEq, false_iff, not_and]
    rintro ⟨a, b, rfl, rfl⟩
    exfalso
    apply hi
    have := slots_pos c
    simp only [List.map_append, List.map_cons, List.sum_append, List.sum_cons]
    omega

/-! ### Texts -/

/-- A text in quotes, with backslashes before quotes and backslashes. -/
def javaQuoted (t : Str) : Str :=
  ['"'] ++ t.flatMap (fun c => if c = '"' ∨ c = '\\' then ['\\', c] else [c]) ++ ['"']

def dotNames (t : Str) : Str := t.map fun c => if c = '/' then '.' else c

/-- A declaration in the Java language: of a field or of a method. -/
inductive Declares : Str → Str → Str → Prop where
  | field (t : JavaType) (ht : GoodType t) (name : Str) : Declares (descriptor t) name (javaText t ++ ' ' :: name)
  | method (ts : List JavaType) (t : JavaType) (hts : ∀ t ∈ ts, GoodType t) (ht : GoodType t) (name : Str) :
      Declares ('(' :: ((ts.map descriptor).flatten ++ ')' :: descriptor t)) name
        (javaText t ++ ' ' :: (name ++ '(' :: (commas (ts.map javaText) ++ [')'])))

/-- The kinds of method handles (4.4.8, table 4.4.8-A): their names, and the tags of the constants
they refer to. -/
def handleKinds : List (Nat × Str × List Nat) :=
  [(1, "getField".toList, [9]), (2, "getStatic".toList, [9]), (3, "putField".toList, [9]), (4, "putStatic".toList, [9]),
   (5, "invokeVirtual".toList, [10]), (6, "invokeStatic".toList, [10, 11]), (7, "invokeSpecial".toList, [10, 11]),
   (8, "newInvokeSpecial".toList, [10]), (9, "invokeInterface".toList, [11])]

/-- What a constant says. -/
inductive Says (floatText : Bytes → Str) (cs : List Const) : Const → Str → Prop where
  | utf8 (t : Str) : Says floatText cs (.utf8 t) (javaQuoted t)
  | integer (v : Int) : Says floatText cs (.integer v) (toString v).toList
  | long (v : Int) : Says floatText cs (.long v) (toString v).toList
  | float (b : Bytes) : Says floatText cs (.float b) (floatText b)
  | double (b : Bytes) : Says floatText cs (.double b) (floatText b)
  | cls (i : Nat) (t : Str) (h : At cs i (.utf8 t)) : Says floatText cs (.cls i) (dotNames t)
  | string (i : Nat) (t : Str) (h : At cs i (.utf8 t)) : Says floatText cs (.string i) (javaQuoted t)
  | ref (tag i ci nt ni di : Nat) (cname name d txt : Str) (h1 : At cs i (.cls ci)) (h2 : At cs ci (.utf8 cname))
      (h3 : At cs nt (.nameType ni di)) (h4 : At cs ni (.utf8 name)) (h5 : At cs di (.utf8 d))
      (h : Declares d (dotNames cname ++ '.' :: name) txt) : Says floatText cs (.ref tag i nt) txt
  | nameType (ni di : Nat) (name d txt : Str) (h4 : At cs ni (.utf8 name)) (h5 : At cs di (.utf8 d)) (h0 : name ≠ [])
      (h : Declares d name txt) : Says floatText cs (.nameType ni di) txt
  | handle (kind i tag ci nt : Nat) (kn : Str) (tags : List Nat) (txt : Str) (hk : (kind, kn, tags) ∈ handleKinds) (ht : tag ∈ tags)
      (h1 : At cs i (.ref tag ci nt)) (h : Says floatText cs (.ref tag ci nt) txt) :
      Says floatText cs (.handle kind i) (kn ++ ['('] ++ txt ++ [')'])
  | methodType (i : Nat) (t : Str) (h : At cs i (.utf8 t)) : Says floatText cs (.methodType i) (javaQuoted t)
  | dynamic (tag b nt ni di : Nat) (txt : Str) (h1 : At cs nt (.nameType ni di)) (h : Says floatText cs (.nameType ni di) txt) :
      Says floatText cs (.dynamic tag b nt) ((toString (b : Int)).toList ++ ", ".toList ++ txt)
  | unit (tag i : Nat) (t : Str) (h : At cs i (.utf8 t)) : Says floatText cs (.unit tag i) (javaQuoted t)

theorem quote_eq (t : Str) : quote t = javaQuoted t := by
  unfold quote javaQuoted
  simp only [List.cons_append, List.nil_append, List.cons.injEq, true_and]
  congr 1
  unfold replaceChar
  rw [List.flatMap_assoc]
  apply List.flatMap_congr
  intro c _
  by_cases h1 : c = '\\'
  · subst h1; rfl
  · by_cases h2 : c = '"'
    · subst h2; rfl
    · simp [h1, h2]

theorem parseAny_eq (d name txt : Str) (h : Declares d name txt) (h0 : name ≠ []) : parseAny d name = .ok txt := by
  cases h with
  | field t ht =>
    rw [(C88_any t ht [] (by simp) name).1, C88_field t ht name, if_neg h0]
  | method ts t hts ht =>
    rw [(C88_any t ht ts hts name).2, C88_method ts t hts ht name]

theorem refKind_handle (kind : Nat) (kn : Str) (tags : List Nat) (h : (kind, kn, tags) ∈ handleKinds) :
    refKind kind = some (kn, tags) := by
  simp only [handleKinds, List.mem_cons, List.not_mem_nil, or_false, Prod.mk.injEq] at h
  rcases h with ⟨rfl, rfl, rfl⟩ | ⟨rfl, rfl, rfl⟩ | ⟨rfl, rfl, rfl⟩ | ⟨rfl, rfl, rfl⟩ | ⟨rfl, rfl, rfl⟩ | ⟨rfl, rfl, rfl⟩ |
    ⟨rfl, rfl, rfl⟩ | ⟨rfl, rfl, rfl⟩ | ⟨rfl, rfl, rfl⟩ <;> rfl

/-- C89: the text of a constant is what the constant says, references to other constants
followed. -/
theorem C89_text (decode : Bytes → Str) (floatText : Bytes → Str) (data : Bytes) (s : InputStream)
    (hs : stringInputStream data = .ok s) (k : Nat)
    (cs : List Const) (bs : Bytes) (h : PoolBytes decode cs bs) (hp : bs <+: data.drop k) (entries : List (Nat × Const)) (last : Nat)
    (hr : readPool decode s (1 + (cs.map slots).sum) (1 + (cs.map slots).sum) 1 (8 * k) = .ok (entries, last))
    (c : Const) (txt : Str) (hc : Says floatText cs c txt) :
    Pool.show floatText ⟨entries, 1 + (cs.map slots).sum⟩ c = .ok txt := by
  have entry := fun types i c => (C89_entry decode data s hs k cs bs h hp entries last hr types i c).2
  generalize hpool : (⟨entries, 1 + (cs.map slots).sum⟩ : Pool) = p at entry
  have text : ∀ i t, At cs i (.utf8 t) → p.text i = .ok t := by
    intro i t ha
    unfold Pool.text
    rw [entry [1] i _ ⟨ha, by simp [Const.tag]⟩]
  have quoted : ∀ i t, At cs i (.utf8 t) → p.quoted i = .ok (javaQuoted t) := by
    intro i t ha
    unfold Pool.quoted
    rw [text i t ha]
    simp only [quote_eq]
  have nameAndType : ∀ nt ni di name d, At cs nt (.nameType ni di) → At cs ni (.utf8 name) → At cs di (.utf8 d) →
      p.nameAndType nt = .ok (d, name) := by
    intro nt ni di name d h1 h2 h3
    unfold Pool.nameAndType
    rw [entry [12] nt _ ⟨h1, by simp [Const.tag]⟩]
    simp only [text _ _ h2, text _ _ h3]
  have ref : ∀ tag i nt txt, Says floatText cs (.ref tag i nt) txt → p.refText i nt = .ok txt := by
    intro tag i nt txt hx
    cases hx with
    | ref _ _ ci _ ni di cname name d _ h1 h2 h3 h4 h5 hd =>
      unfold Pool.refText
      rw [nameAndType nt ni di name d h3 h4 h5]
      have : p.className i = .ok cname := by
        unfold Pool.className
        rw [entry [7] i _ ⟨h1, by simp [Const.tag]⟩]
        simp only [text _ _ h2]
      simp only [this]
      exact parseAny_eq _ _ _ hd (by simp)
  cases hc with
  | utf8 t => simp only [Pool.show, quote_eq]
  | integer v => rfl
  | long v => rfl
  | float b => rfl
  | double b => rfl
  | cls i t h => simp only [Pool.show, text i t h]; rfl
  | string i t h => simp only [Pool.show, quoted i t h]
  | ref tag i ci nt ni di cname name d txt h1 h2 h3 h4 h5 hd =>
    simp only [Pool.show]
    exact ref tag i nt txt (.ref tag i ci nt ni di cname name d txt h1 h2 h3 h4 h5 hd)
  | nameType ni di name d txt h4 h5 h0 hd =>
    simp only [Pool.show, text _ _ h4, text _ _ h5]
    exact parseAny_eq _ _ _ hd h0
  | handle kind i tag ci nt kn tags txt hk ht h1 hx =>
    simp only [Pool.show, refKind_handle kind kn tags hk]
    rw [entry tags i _ ⟨h1, ht⟩]
    simp only [ref tag ci nt txt hx]
    simp
  | methodType i t h => simp only [Pool.show, quoted i t h]
  | dynamic tag b nt ni di txt h1 hx =>
    cases hx with
    | nameType _ _ name d _ h4 h5 h0 hd =>
      simp only [Pool.show, Pool.nameAndTypeText, nameAndType nt ni di name d h1 h4 h5, parseAny_eq _ _ _ hd h0]
      rfl
  | unit tag i t h => simp only [Pool.show, quoted i t h]

/-! ### A pool with a field `int A.x` behind a `long` -/

def charsOf (b : Bytes) : Str := b.map fun c => Char.ofNat c.toNat

def samplePool : List Const :=
  [.utf8 "A".toList, .cls 1, .long 5, .utf8 "x".toList, .utf8 "I".toList, .nameType 5 6, .ref 9 2 7]

def samplePoolBytes : Bytes :=
  [1, 0, 1, 65] ++ ([7, 0, 1] ++ ([5, 0, 0, 0, 0, 0, 0, 0, 5] ++ ([1, 0, 1, 120] ++ ([1, 0, 1, 73] ++
    ([12, 0, 5, 0, 6] ++ ([9, 0, 2, 0, 7] ++ []))))))

theorem samplePool_bytes : PoolBytes charsOf samplePool samplePoolBytes :=
  .cons _ _ _ _ (.utf8 [0, 1] [65] ⟨rfl, rfl⟩) <|
  .cons _ _ _ _ (.cls 1 [0, 1] ⟨rfl, rfl⟩) <|
  .cons _ _ _ _ (.long 5 [0, 0, 0, 0, 0, 0, 0, 5] ⟨rfl, rfl⟩) <|
  .cons _ _ _ _ (.utf8 [0, 1] [120] ⟨rfl, rfl⟩) <|
  .cons _ _ _ _ (.utf8 [0, 1] [73] ⟨rfl, rfl⟩) <|
  .cons _ _ _ _ (.nameType 5 6 [0, 5] [0, 6] ⟨rfl, rfl⟩ ⟨rfl, rfl⟩) <|
  .cons _ _ _ _ (.field 2 7 [0, 2] [0, 7] ⟨rfl, rfl⟩ ⟨rfl, rfl⟩) .nil

theorem samplePool_says : Says (fun _ => []) samplePool (.ref 9 2 7) "int A.x".toList :=
  .ref 9 2 1 7 5 6 "A".toList "x".toList "I".toList _ ⟨[.utf8 "A".toList], _, rfl, rfl⟩ ⟨[], _, rfl, rfl⟩
    ⟨[.utf8 "A".toList, .cls 1, .long 5, .utf8 "x".toList, .utf8 "I".toList], _, rfl, rfl⟩
    ⟨[.utf8 "A".toList, .cls 1, .long 5], _, rfl, rfl⟩
    ⟨[.utf8 "A".toList, .cls 1, .long 5, .utf8 "x".toList], _, rfl, rfl⟩
    (.field .int trivial _)

example : ∃ s entries last, stringInputStream samplePoolBytes = .ok s ∧ readPool charsOf s 9 9 1 0 = .ok (entries, last) ∧
    (8, .ref 9 2 7) ∈ entries ∧ Pool.show (fun _ => []) ⟨entries, 9⟩ (.ref 9 2 7) = .ok "int A.x".toList := by
  obtain ⟨s, hs⟩ : ∃ s, stringInputStream samplePoolBytes = .ok s := ⟨_, rfl⟩
  obtain ⟨entries, h1, _, h3⟩ := C89_read charsOf samplePoolBytes s hs 0 samplePool samplePoolBytes samplePool_bytes ⟨[], by simp⟩
  refine ⟨s, entries, _, hs, h1, (h3 _ _).2 ⟨[.utf8 "A".toList, .cls 1, .long 5, .utf8 "x".toList, .utf8 "I".toList, .nameType 5 6], [], rfl, rfl⟩, ?_⟩
  exact C89_text charsOf _ samplePoolBytes s hs 0 samplePool samplePoolBytes samplePool_bytes ⟨[], by simp⟩ entries _ h1 _ _ samplePool_says

end Hachoir.Props

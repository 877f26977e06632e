import Verif.Formats.JavaCode
import Verif.Props.Fields
import Mathlib.Data.List.Nodup

/-!
# C90: the code of Java methods
-/

set_option linter.unusedVariables false

namespace Hachoir.Props
open Hachoir Hachoir.Stream Hachoir.Formats Hachoir.Formats.Java Spec

/-! ### Instructions of the Java virtual machine (JVM specification, chapters 6 and 7) -/

/-- Names with prefixes and suffixes. -/
def prefixed (ps : List String) (s : String) : List String := ps.map (· ++ s)
def suffixed (p : String) (ss : List String) : List String := ss.map (p ++ ·)

/-- All mnemonics in the order of their opcodes (chapter 7), the reserved `breakpoint` last. -/
def mnemonics : List String :=
  ["nop", "aconst_null"] ++ suffixed "iconst_" ["m1", "0", "1", "2", "3", "4", "5"] ++ suffixed "lconst_" ["0", "1"] ++
  suffixed "fconst_" ["0", "1", "2"] ++ suffixed "dconst_" ["0", "1"] ++ ["bipush", "sipush", "ldc", "ldc_w", "ldc2_w"] ++
  prefixed ["i", "l", "f", "d", "a"] "load" ++
  (prefixed ["i", "l", "f", "d", "a"] "load_").flatMap (suffixed · ["0", "1", "2", "3"]) ++
  prefixed ["i", "l", "f", "d", "a", "b", "c", "s"] "aload" ++
  prefixed ["i", "l", "f", "d", "a"] "store" ++
  (prefixed ["i", "l", "f", "d", "a"] "store_").flatMap (suffixed · ["0", "1", "2", "3"]) ++
  prefixed ["i", "l", "f", "d", "a", "b", "c", "s"] "astore" ++
  ["pop", "pop2", "dup", "dup_x1", "dup_x2", "dup2", "dup2_x1", "dup2_x2", "swap"] ++
  ["add", "sub", "mul", "div", "rem", "neg"].flatMap (prefixed ["i", "l", "f", "d"]) ++
  ["shl", "shr", "ushr", "and", "or", "xor"].flatMap (prefixed ["i", "l"]) ++ ["iinc"] ++
  suffixed "i2" ["l", "f", "d"] ++ suffixed "l2" ["i", "f", "d"] ++ suffixed "f2" ["i", "l", "d"] ++ suffixed "d2" ["i", "l", "f"] ++
  suffixed "i2" ["b", "c", "s"] ++ ["lcmp"] ++ suffixed "fcmp" ["l", "g"] ++ suffixed "dcmp" ["l", "g"] ++
  suffixed "if" ["eq", "ne", "lt", "ge", "gt", "le"] ++ suffixed "if_icmp" ["eq", "ne", "lt", "ge", "gt", "le"] ++
  suffixed "if_acmp" ["eq", "ne"] ++ ["goto", "jsr", "ret", "tableswitch", "lookupswitch"] ++
  prefixed ["i", "l", "f", "d", "a", ""] "return" ++ ["getstatic", "putstatic", "getfield", "putfield"] ++
  suffixed "invoke" ["virtual", "special", "static", "interface", "dynamic"] ++
  ["new", "newarray", "anewarray", "arraylength", "athrow", "checkcast", "instanceof", "monitorenter", "monitorexit", "wide",
   "multianewarray"] ++ suffixed "if" ["null", "nonnull"] ++ prefixed ["goto", "jsr"] "_w" ++ ["breakpoint"]

/-- The instructions with an index of a local variable, which `wide` may precede. -/
def localOps : List String := prefixed ["i", "l", "f", "d", "a"] "load" ++ prefixed ["i", "l", "f", "d", "a"] "store" ++ ["ret"]

/-- The operands by the name of the instruction (chapter 6): signed or not, and bytes. -/
def operandsOf (name : String) : List (Bool × Nat) :=
  if name ∈ localOps then [(false, 1)]
  else if name = "bipush" then [(true, 1)]
  else if name = "sipush" then [(true, 2)]
  else if name ∈ ["ldc", "newarray"] then [(false, 1)]
  else if name = "iinc" then [(false, 1), (true, 1)]
  else if name ∈ ["goto", "jsr", "ifnull", "ifnonnull"] ++ suffixed "if" ["eq", "ne", "lt", "ge", "gt", "le"] ++
    suffixed "if_icmp" ["eq", "ne", "lt", "ge", "gt", "le"] ++ suffixed "if_acmp" ["eq", "ne"] then [(true, 2)]
  else if name ∈ ["goto_w", "jsr_w"] then [(true, 4)]
  else if name ∈ ["ldc_w", "ldc2_w", "getstatic", "putstatic", "getfield", "putfield", "invokevirtual", "invokespecial",
    "invokestatic", "new", "anewarray", "checkcast", "instanceof"] then [(false, 2)]
  else if name ∈ ["invokeinterface", "invokedynamic"] then [(false, 2), (false, 1), (false, 1)]
  else if name = "multianewarray" then [(false, 2), (false, 1)]
  else []

/-- The opcode of an instruction. -/
def IsOp (op : UInt8) (name : String) : Prop := mnemonics[op.toNat]? = some name

instance (op : UInt8) (name : String) : Decidable (IsOp op name) := inferInstanceAs (Decidable (_ = _))

/-- An instruction at an offset of the code. -/
inductive InstrBytes (pos : Nat) : Instr → Bytes → Prop where
  | simple (op : UInt8) (name : String) (args : List Int) (bs : Bytes) (h : IsOp op name)
      (hn : name ∉ ["wide", "tableswitch", "lookupswitch"]) (ha : FieldsBytes .big (operandsOf name) args bs) :
      InstrBytes pos ⟨name, args⟩ (op :: bs)
  | wide (op op' : UInt8) (name : String) (args : List Int) (bs : Bytes) (h : IsOp op "wide") (h' : IsOp op' name)
      (hn : name ∈ localOps) (ha : FieldsBytes .big [(false, 2)] args bs) :
      InstrBytes pos ⟨"wide", op'.toNat :: args⟩ (op :: op' :: bs)
  | wideInc (op op' : UInt8) (args : List Int) (bs : Bytes) (h : IsOp op "wide") (h' : IsOp op' "iinc")
      (ha : FieldsBytes .big [(false, 2), (true, 2)] args bs) : InstrBytes pos ⟨"wide", op'.toNat :: args⟩ (op :: op' :: bs)
  | table (op : UInt8) (pad : Bytes) (d low high : Int) (offsets : List Int) (a b : Bytes) (h : IsOp op "tableswitch")
      (hp : pad.length < 4) (hp4 : (pos + 1 + pad.length) % 4 = 0) (hlh : low ≤ high)
      (ha : FieldsBytes .big [(true, 4), (true, 4), (true, 4)] [d, low, high] a)
      (hb : FieldsBytes .big (List.replicate (high - low + 1).toNat (true, 4)) offsets b) :
      InstrBytes pos ⟨"tableswitch", d :: low :: high :: offsets⟩ (op :: (pad ++ (a ++ b)))
  | lookup (op : UInt8) (pad : Bytes) (d : Int) (n : Nat) (pairs : List Int) (a b : Bytes) (h : IsOp op "lookupswitch")
      (hp : pad.length < 4) (hp4 : (pos + 1 + pad.length) % 4 = 0)
      (ha : FieldsBytes .big [(true, 4), (true, 4)] [d, n] a)
      (hb : FieldsBytes .big (List.replicate (2 * n) (true, 4)) pairs b) :
      InstrBytes pos ⟨"lookupswitch", d :: n :: pairs⟩ (op :: (pad ++ (a ++ b)))

/-- Code: instructions with their offsets. -/
inductive CodeBytes : Nat → List (Nat × Instr) → Bytes → Prop where
  | nil (pos : Nat) : CodeBytes pos [] []
  | cons (pos : Nat) (i : Instr) (is : List (Nat × Instr)) (a b : Bytes) (h : InstrBytes pos i a)
      (hs : CodeBytes (pos + a.length) is b) : CodeBytes pos ((pos, i) :: is) (a ++ b)

/-! ### Tables -/

theorem names_eq : opNames = mnemonics := by decide +kernel

theorem opName_eq (op : UInt8) (name : String) (h : IsOp op name) : opName op.toNat = name := by
  unfold opName
  rw [names_eq, h]

/-- The whole table. -/
theorem table_eq : ∀ n < 203, (mnemonics.getD n "" ∈ ["wide", "tableswitch", "lookupswitch"] ∧ (n = 0xc4 ∨ n = 0xaa ∨ n = 0xab)) ∨
    (n ≠ 0xc4 ∧ n ≠ 0xaa ∧ n ≠ 0xab ∧ opClass n ≠ .wide ∧ opClass n ≠ .tableSwitch ∧ opClass n ≠ .lookupSwitch ∧
      opFields (opClass n) = inBits (operandsOf (mnemonics.getD n ""))) := by decide +kernel

theorem names_once : mnemonics.Nodup := by decide +kernel

theorem isOp_unique {op op' : UInt8} {name : String} (h : IsOp op name) (h' : IsOp op' name) : op = op' := by
  obtain ⟨h1, e1⟩ := List.getElem?_eq_some_iff.1 h
  obtain ⟨h2, e2⟩ := List.getElem?_eq_some_iff.1 h'
  have := (List.Nodup.getElem_inj_iff names_once (hi := h1) (hj := h2)).1 (e1.trans e2.symm)
  exact UInt8.toNat_inj.1 this

theorem isOp_wide {op : UInt8} (h : IsOp op "wide") : op = 0xc4 := isOp_unique h (by decide +kernel)
theorem isOp_table {op : UInt8} (h : IsOp op "tableswitch") : op = 0xaa := isOp_unique h (by decide +kernel)
theorem isOp_lookup {op : UInt8} (h : IsOp op "lookupswitch") : op = 0xab := isOp_unique h (by decide +kernel)
theorem isOp_iinc {op : UInt8} (h : IsOp op "iinc") : op = 0x84 := isOp_unique h (by decide +kernel)

theorem mnemonics_length : mnemonics.length = 203 := by decide +kernel

/-! ### Reading -/

theorem readByte_big (data : Bytes) (s : InputStream) (hs : stringInputStream data = .ok s) (k : Nat) (b : UInt8) (bs : Bytes)
    (hp : (b :: bs) <+: data.drop k) (ad : Int) (had : ad = (8 * k : Nat)) : readBits s ad 8 .big = .ok b.toNat :=
  read_number data s hs .big k b.toNat [b] (by simp) (by simp [numberIn, ofBytesBE]) (prefix_left (xs := [b]) hp) 8 rfl ad had

theorem padding_eq (pos pad : Nat) (hp : pad < 4) (hp4 : (pos + 1 + pad) % 4 = 0) :
    Tools.paddingSize ((8 * pos + 8 : Nat) : Int) 32 = .ok ((8 * pad : Nat) : Int) := by
  unfold Tools.paddingSize
  rw [if_neg (by omega), Int.fmod_eq_emod_of_nonneg _ (by omega)]
  split
  · congr 1; omega
  · congr 1; omega

theorem inBits_replicate (n : Nat) : inBits (List.replicate n (true, 4)) = List.replicate n (true, 32) := by
  simp [inBits]

theorem sum_replicate4 (n : Nat) : ((List.replicate n (true, 4)).map Prod.snd).sum = 4 * n := by
  simp [Nat.mul_comm]

theorem readWide_other (s : InputStream) (ad : Int) (args : List Int)
    (hr : readFields s .big ad [(false, 8), (false, 16)] = .ok args) (h : args.head? ≠ some 0x84) : readWide s ad = .ok (args, 24) := by
  unfold readWide
  rw [hr]
  exact if_neg h

theorem readWide_inc (s : InputStream) (ad : Int) (args value : List Int)
    (hr : readFields s .big ad [(false, 8), (false, 16)] = .ok args) (h : args.head? = some 0x84)
    (hr2 : readFields s .big (ad + 24) [(true, 16)] = .ok value) : readWide s ad = .ok (args ++ value, 40) := by
  unfold readWide
  rw [hr, hr2]
  exact if_pos h

theorem readInstr_eq (data : Bytes) (s : InputStream) (hs : stringInputStream data = .ok s) (k pos : Nat) (i : Instr) (bs : Bytes)
    (h : InstrBytes pos i bs) (hp : bs <+: data.drop (k + pos)) :
    readInstr s (8 * k) (8 * pos) = .ok (i, 8 * bs.length) := by
  unfold readInstr
  cases h with
  | simple op name args bs h hn ha =>
    rw [readByte_big data s hs (k + pos) op bs hp _ (by omega)]
    obtain ⟨hlt, he⟩ := List.getElem?_eq_some_iff.1 h
    have hlt' : op.toNat < 203 := by rw [mnemonics_length] at hlt; exact hlt
    have hgd : mnemonics.getD op.toNat "" = name := by rw [List.getD_eq_getElem?_getD, h]; rfl
    have hr := readFields_bytes data s hs .big ha (k + pos + 1) (drop_prefix (xs := [op]) hp)
    rcases table_eq op.toNat hlt' with ⟨hx, _⟩ | ⟨_, _, _, c1, c2, c3, hf⟩
    · rw [hgd] at hx; exact absurd hx hn
    · rw [hgd] at hf
      have hl := fieldsBytes_length ha
      have hsz := fieldsSize_inBits (operandsOf name)
      have hname := opName_eq op name h
      simp only
      rw [← hf] at hr hsz
      have hr' := hr (8 * k + 8 * pos + 8 : Nat) (by omega)
      generalize opClass op.toNat = c at *
      cases c <;> first
        | exact absurd rfl c1
        | exact absurd rfl c2
        | exact absurd rfl c3
        | simp only [hr', hname, Except.ok.injEq, Prod.mk.injEq, List.length_cons, true_and, hsz]; omega
  | wide op op' name args bs h h' hn ha =>
    rw [readByte_big data s hs (k + pos) op _ hp _ (by omega)]
    have hname := opName_eq op _ h
    have hop := isOp_wide h
    subst hop
    simp only [show opClass (UInt8.toNat 0xc4) = .wide from rfl]
    have hF : FieldsBytes .big [(false, 1), (false, 2)] (op'.toNat :: args) ([op'] ++ bs) :=
      .unsigned 1 op'.toNat _ _ [op'] bs (by omega) rfl (by simp [numberIn, ofBytesBE]) ha
    have hr := readFields_bytes data s hs .big hF (k + pos + 1) (drop_prefix (xs := [0xc4]) hp) (8 * k + 8 * pos + 8 : Nat) (by omega)
    have hne : op' ≠ 0x84 := by
      rintro rfl
      have h1 : name = "iinc" := by
        have h2 : IsOp 0x84 "iinc" := by decide +kernel
        unfold IsOp at h' h2
        rw [h2] at h'
        exact (Option.some.inj h').symm
      subst h1
      revert hn; decide +kernel
    have hne' : ((op'.toNat : Int) : Int) ≠ 0x84 := by
      intro hx
      apply hne
      apply UInt8.toNat_inj.1
      show op'.toNat = 132
      omega
    simp only [inBits, List.map_cons, List.map_nil, show 8 * 1 = 8 from rfl, show 8 * 2 = 16 from rfl] at hr
    rw [readWide_other s _ _ hr (by intro hx; exact hne' (Option.some.inj hx))]
    have hl := fieldsBytes_length ha
    simp only [List.map_cons, List.map_nil, List.sum_cons, List.sum_nil] at hl
    simp only [hname, Except.ok.injEq, Prod.mk.injEq, List.length_cons, true_and]
    omega
  | wideInc op op' args bs h h' ha =>
    rw [readByte_big data s hs (k + pos) op _ hp _ (by omega)]
    have hname := opName_eq op _ h
    have hop := isOp_wide h
    subst hop
    have hop' := isOp_iinc h'
    subst hop'
    simp only [show opClass (UInt8.toNat 0xc4) = .wide from rfl]
    have hl := fieldsBytes_length ha
    simp only [List.map_cons, List.map_nil, List.sum_cons, List.sum_nil] at hl
    have hp1 := drop_prefix (xs := [0xc4, 0x84]) hp
    cases ha with
    | unsigned _ v1 _ vs a b _ hal hv hb =>
      have hF : FieldsBytes .big [(false, 1), (false, 2)] ((132 : Nat) :: [(v1 : Int)]) ([0x84] ++ (a ++ [])) :=
        .unsigned 1 132 _ _ [0x84] (a ++ []) (by omega) rfl (by simp [numberIn, ofBytesBE])
          (.unsigned 2 v1 _ _ a [] (by omega) hal hv .nil)
      have hpF : ([0x84] ++ (a ++ [])) <+: data.drop (k + pos + 1) := by
        have := drop_prefix (xs := [0xc4]) hp
        rw [List.append_nil]
        exact prefix_left (ys := b) (by simpa using this)
      have hr := readFields_bytes data s hs .big hF (k + pos + 1) hpF (8 * k + 8 * pos + 8 : Nat) (by omega)
      have hpb := drop_prefix hp1
      rw [hal] at hpb
      have hr2 := readFields_bytes data s hs .big hb (k + pos + 4) (by simpa [Nat.add_assoc] using hpb)
        (((8 * k + 8 * pos + 8 : Nat) : Int) + 24) (by omega)
      simp only [inBits, List.map_cons, List.map_nil, show 8 * 1 = 8 from rfl, show 8 * 2 = 16 from rfl] at hr hr2
      rw [readWide_inc s _ _ _ hr rfl hr2]
      simp only [hname, Except.ok.injEq, Prod.mk.injEq, List.length_cons]
      refine ⟨rfl, ?_⟩
      omega
  | table op pad d low high offsets a b h hp3 hp4 hlh ha hb =>
    rw [readByte_big data s hs (k + pos) op _ hp _ (by omega)]
    have hname := opName_eq op _ h
    have hop := isOp_table h
    subst hop
    simp only [show opClass (UInt8.toNat 0xaa) = .tableSwitch from rfl]
    rw [padding_eq pos pad.length hp3 hp4]
    have hpa := drop_prefix (drop_prefix (xs := [0xaa]) hp)
    have hpb := drop_prefix hpa
    have hla := fieldsBytes_length ha
    have hlb := fieldsBytes_length hb
    rw [sum_replicate4] at hlb
    simp only [List.map_cons, List.map_nil, List.sum_cons, List.sum_nil] at hla
    have hr := readFields_bytes data s hs .big ha _ (prefix_left hpa) (((8 * k + 8 * pos + 8 : Nat) : Int) + ((8 * pad.length : Nat) : Int))
      (by simp only [List.length_cons, List.length_nil]; omega)
    have hr2 := readFields_bytes data s hs .big hb _ hpb (((8 * k + 8 * pos + 8 : Nat) : Int) + ((8 * pad.length : Nat) : Int) + 96)
      (by simp only [List.length_cons, List.length_nil]; omega)
    rw [inBits_replicate] at hr2
    simp only [inBits, List.map_cons, List.map_nil, show 8 * 4 = 32 from rfl] at hr
    unfold readTable
    simp only [hr, hr2, hname, Except.ok.injEq, Prod.mk.injEq, List.length_cons, List.length_append, true_and]
    omega
  | lookup op pad d n pairs a b h hp3 hp4 ha hb =>
    rw [readByte_big data s hs (k + pos) op _ hp _ (by omega)]
    have hname := opName_eq op _ h
    have hop := isOp_lookup h
    subst hop
    simp only [show opClass (UInt8.toNat 0xab) = .lookupSwitch from rfl]
    rw [padding_eq pos pad.length hp3 hp4]
    have hpa := drop_prefix (drop_prefix (xs := [0xab]) hp)
    have hpb := drop_prefix hpa
    have hla := fieldsBytes_length ha
    have hlb := fieldsBytes_length hb
    rw [sum_replicate4] at hlb
    simp only [List.map_cons, List.map_nil, List.sum_cons, List.sum_nil] at hla
    have hr := readFields_bytes data s hs .big ha _ (prefix_left hpa) (((8 * k + 8 * pos + 8 : Nat) : Int) + ((8 * pad.length : Nat) : Int))
      (by simp only [List.length_cons, List.length_nil]; omega)
    have hr2 := readFields_bytes data s hs .big hb _ hpb (((8 * k + 8 * pos + 8 : Nat) : Int) + ((8 * pad.length : Nat) : Int) + 64)
      (by simp only [List.length_cons, List.length_nil]; omega)
    rw [inBits_replicate] at hr2
    simp only [inBits, List.map_cons, List.map_nil, show 8 * 4 = 32 from rfl] at hr
    unfold readLookup
    simp only [hr, Int.toNat_natCast, hr2, hname, Except.ok.injEq, Prod.mk.injEq, List.length_cons, List.length_append, true_and]
    omega

theorem instr_pos {pos : Nat} {i : Instr} {bs : Bytes} (h : InstrBytes pos i bs) : 0 < bs.length := by
  cases h <;> simp

theorem readCode_eq (data : Bytes) (s : InputStream) (hs : stringInputStream data = .ok s) (k size : Nat)
    {pos : Nat} {is : List (Nat × Instr)} {bs : Bytes} (h : CodeBytes pos is bs) :
    bs <+: data.drop (k + pos) → pos + bs.length = size → ∀ n, bs.length ≤ n →
    readCode s (8 * k) (8 * size) n (8 * pos) = .ok (is.map fun p => (8 * p.1, p.2)) := by
  induction h with
  | nil pos =>
    intro _ hsz n _
    simp only [List.length_nil] at hsz
    cases n with
    | zero => rw [readCode, if_neg (by omega)]; rfl
    | succ n => rw [readCode, if_neg (by omega)]; rfl
  | cons pos i is a b h _ ih =>
    intro hp hsz n hn
    have h0 := instr_pos h
    simp only [List.length_append] at hsz hn
    obtain ⟨n, rfl⟩ : ∃ m, n = m + 1 := ⟨n - 1, by omega⟩
    rw [readCode, if_pos (by omega), readInstr_eq data s hs k pos i a h (prefix_left hp)]
    simp only
    have hp2 := drop_prefix hp
    rw [show k + pos + a.length = k + (pos + a.length) by omega] at hp2
    rw [show 8 * pos + 8 * a.length = 8 * (pos + a.length) by omega, ih hp2 (by omega) n (by omega)]
    rfl

/-! ### Theorem -/

/-- C90: the code of a method is read as its instructions: names, operands with their signs, and
offsets, `wide` and switches with their padding included, up to the end of the code. -/
theorem C90_code (data : Bytes) (s : InputStream) (hs : stringInputStream data = .ok s) (k : Nat)
    (is : List (Nat × Instr)) (bs : Bytes) (h : CodeBytes 0 is bs) (hp : bs <+: data.drop k) :
    readCode s (8 * k) (8 * bs.length) (8 * bs.length) 0 = .ok (is.map fun p => (8 * p.1, p.2)) :=
  readCode_eq data s hs k bs.length h hp (by omega) _ (by omega)

/-- `iconst_m1; tableswitch 5..6; wide iinc 300 -2; goto -1`. -/
def sampleCode : Bytes :=
  [0x02] ++ ([0xaa, 0, 0, 0, 0, 0, 20, 0, 0, 0, 5, 0, 0, 0, 6, 0, 0, 0, 30, 255, 255, 255, 255] ++
    ([0xc4, 0x84, 1, 44, 255, 254] ++ ([0xa7, 255, 255] ++ [])))

theorem sampleCode_bytes : CodeBytes 0
    [(0, ⟨"iconst_m1", []⟩), (1, ⟨"tableswitch", [20, 5, 6, 30, -1]⟩), (24, ⟨"wide", [132, 300, -2]⟩), (30, ⟨"goto", [-1]⟩)]
    sampleCode := by
  have F4 : ∀ (v : Nat) (a : Bytes) (fs vs b), a.length = 4 → ofBytesBE a = v → FieldsBytes .big fs vs b →
      FieldsBytes .big ((true, 4) :: fs) (twosComplement 32 v :: vs) (a ++ b) := fun v a fs vs b h1 h2 h3 =>
    .signed 4 v fs vs a b (by omega) h1 (by simp [numberIn, h2]) h3
  refine .cons 0 _ _ [0x02] _ ?_ (.cons 1 _ _ _ _ ?_ (.cons 24 _ _ _ _ ?_ (.cons 30 _ _ _ _ ?_ (.nil _))))
  · exact .simple 2 "iconst_m1" [] [] (by decide +kernel) (by decide +kernel)
      (by rw [show operandsOf "iconst_m1" = [] by decide +kernel]; exact .nil)
  · exact .table 0xaa [0, 0] 20 5 6 [30, -1] ([0, 0, 0, 20] ++ ([0, 0, 0, 5] ++ ([0, 0, 0, 6] ++ [])))
      ([0, 0, 0, 30] ++ ([255, 255, 255, 255] ++ [])) (by decide +kernel) (by decide) (by decide) (by decide)
      (F4 20 _ _ _ _ rfl (by decide +kernel) (F4 5 _ _ _ _ rfl (by decide +kernel) (F4 6 _ _ _ _ rfl (by decide +kernel) .nil)))
      (F4 30 _ _ _ _ rfl (by decide +kernel) (F4 0xffffffff _ _ _ _ rfl (by decide +kernel) .nil))
  · exact .wideInc 0xc4 0x84 [300, -2] ([1, 44] ++ ([255, 254] ++ [])) (by decide +kernel) (by decide +kernel)
      (.unsigned 2 300 _ _ [1, 44] _ (by omega) rfl (by decide +kernel)
        (.signed 2 65534 _ _ [255, 254] [] (by omega) rfl (by decide +kernel) .nil))
  · exact .simple 0xa7 "goto" [-1] ([255, 255] ++ []) (by decide +kernel) (by decide +kernel)
      (by rw [show operandsOf "goto" = [(true, 2)] by decide +kernel]
          exact .signed 2 65535 _ _ [255, 255] [] (by omega) rfl (by decide +kernel) .nil)

example : ∃ s, stringInputStream sampleCode = .ok s ∧ readCode s 0 (8 * 33) (8 * 33) 0 =
    .ok [(0, ⟨"iconst_m1", []⟩), (8, ⟨"tableswitch", [20, 5, 6, 30, -1]⟩), (192, ⟨"wide", [132, 300, -2]⟩), (240, ⟨"goto", [-1]⟩)] :=
  ⟨_, rfl, C90_code sampleCode _ rfl 0 _ sampleCode sampleCode_bytes ⟨[], by simp⟩⟩

end Hachoir.Props

import Verif.Formats.Ace
import Verif.Props.Asf
import Verif.Props.Cab
import Verif.Props.Pifv

/-!
# C196: ACE archives
-/

namespace Hachoir.Props
open Spec Hachoir Hachoir.Stream Hachoir.Field Hachoir.Formats Hachoir.Formats.Ace

/-! ## Archives as they are written -/

/-- A comment: its size and its bytes. -/
def aceComment : Option Bytes → Bytes
  | none => []
  | some b => leBytes 2 b.length ++ b

def aceAv : Option Bytes → Bytes
  | none => []
  | some b => UInt8.ofNat b.length :: b

def aceSize : Option Nat → Bytes
  | none => []
  | some n => leBytes 4 n

/-- The kinds of blocks, with the number of the kind, the bytes behind that number, and the size of the body. Bit 0 of the flags tells whether there is a body, bit 1 whether there is a
comment, and bit 12 whether there is a text of who made the archive. -/
inductive AceWritten : Kind → Nat → Bytes → Nat → Prop where
  | header (f : Nat) (hf : f < 65536) (sign : Bytes) (hs : sign.length = 7) (ns : List Nat) (hn : NumsFit [1, 1, 1, 1, 4] ns) (r : Nat) (hr : r < 2 ^ 64)
      (av comment : Option Bytes) (ha : av.isSome ↔ f.testBit 12) (ha' : ∀ b ∈ av, b.length < 256) (hc : comment.isSome ↔ f.testBit 1) (hc' : ∀ b ∈ comment, b.length < 65536) :
    AceWritten (.header (splitLE [1, 1, 7, 1, 1, 1, 1, 1, 1, 1] f) sign ns r av comment) 0
      (leBytes 2 f ++ (sign ++ (numsBytes [1, 1, 1, 1, 4] ns ++ (leBytes 8 r ++ (aceAv av ++ aceComment comment))))) 0
  | file (f : Nat) (hf : f < 65536) (packed : Nat) (ns ms : List Nat) (hn : NumsFit [4, 4, 4] (packed :: ns)) (hm : NumsFit [4, 4, 1, 1, 2, 2] ms) (name : Bytes) (hl : name.length < 65536)
      (comment : Option Bytes) (hc : comment.isSome ↔ f.testBit 1) (hc' : ∀ b ∈ comment, b.length < 65536) :
    AceWritten (.file (splitLE [1, 1, 10, 1, 1, 1, 1] f) (packed :: ns ++ ms) name comment) 1
      (leBytes 2 f ++ (numsBytes [4, 4, 4] (packed :: ns) ++ (numsBytes [4, 4, 1, 1, 2, 2] ms ++ (leBytes 2 name.length ++ name ++ aceComment comment)))) packed
  | recovery (f : Nat) (hf : f < 65536) (size : Option Nat) (hs : size.isSome ↔ f.testBit 0) (hs' : ∀ n ∈ size, n < 2 ^ 32) (first : Nat) (h1 : first < 2 ^ 32) (sign : Bytes)
      (hg : sign.length = 7) (ns : List Nat) (hn : NumsFit [4, 4] ns) :
    AceWritten (.newRecovery (splitLE [1, 15] f) size first sign ns) 5 (leBytes 2 f ++ (aceSize size ++ (leBytes 4 first ++ (sign ++ numsBytes [4, 4] ns)))) (size.getD 0)

/-- A block: two numbers, the number of its kind, its fields, what the size of the head says beyond them, and the body. -/
structure AceBlock (b : Block) (bytes : Bytes) : Prop where
  ex : ∃ (type : Nat) (fields : Bytes) (n : Nat), AceWritten b.kind type fields n ∧ b.extra.length = b.headSize - (1 + fields.length) ∧ b.body.length = n ∧
    bytes = leBytes 2 b.crc ++ (leBytes 2 b.headSize ++ (leBytes 1 type ++ (fields ++ (b.extra ++ b.body))))
  crc : b.crc < 65536
  head : b.headSize < 65536

/-! ## Reading -/

theorem reads_ace_rawOr (b : Bytes) (n : Nat) (h : b.length = n) : Reads (rawOr n) b b := by
  subst h
  rw [rawOr]
  by_cases hz : b = []
  · subst hz; exact reads_pure _
  · rw [if_pos (List.length_pos_iff.2 hz)]; exact reads_raw b hz

theorem flag_set {α : Type} {o : Option α} {f i : Nat} (h : o.isSome ↔ f.testBit i) : (o = none ∧ f / 2 ^ i % 2 = 0) ∨ ∃ b, o = some b ∧ f / 2 ^ i % 2 ≠ 0 := by
  have ht : f.testBit i = decide (f / 2 ^ i % 2 = 1) := Nat.testBit_eq_decide_div_mod_eq
  rw [ht, decide_eq_true_eq] at h
  cases o with
  | none => left; refine ⟨rfl, ?_⟩; simp at h; omega
  | some b => right; refine ⟨b, rfl, ?_⟩; simp at h; omega

theorem reads_ace_comment (o : Option Bytes) (f flag : Nat) (h : o.isSome ↔ f.testBit 1) (h' : ∀ b ∈ o, b.length < 65536) (e : flag = f / 2 ^ 1 % 2) :
    Reads (commentOf flag) o (aceComment o) := by
  rcases flag_set h with ⟨rfl, h0⟩ | ⟨b, rfl, h0⟩
  · rw [commentOf, if_pos (by omega)]; exact reads_pure _
  · rw [commentOf, if_neg (by omega)]
    have := h' b rfl
    exact Reads.rbind (reads_int_le 2 _ (by decide) (by omega)) (Reads.rmap (f := some) (reads_ace_rawOr b _ rfl))

theorem reads_ace_av (o : Option Bytes) (f flag : Nat) (h : o.isSome ↔ f.testBit 12) (h' : ∀ b ∈ o, b.length < 256) (e : flag = f / 2 ^ 12 % 2) : Reads (avOf flag) o (aceAv o) := by
  rcases flag_set h with ⟨rfl, h0⟩ | ⟨b, rfl, h0⟩
  · rw [avOf, if_pos (by omega)]; exact reads_pure _
  · rw [avOf, if_neg (by omega)]
    exact Reads.rmap (f := some) (reads_pascal8 .little (by decide) .eightBit (by decide) b (h' b rfl))

theorem reads_ace_size (o : Option Nat) (f flag : Nat) (h : o.isSome ↔ f.testBit 0) (h' : ∀ b ∈ o, b < 2 ^ 32) (e : flag = f / 2 ^ 0 % 2) : Reads (bodySizeOf flag) o (aceSize o) := by
  rcases flag_set h with ⟨rfl, h0⟩ | ⟨b, rfl, h0⟩
  · rw [bodySizeOf, if_pos (by omega)]; exact reads_pure _
  · rw [bodySizeOf, if_neg (by omega)]
    have := h' b rfl
    exact Reads.rmap (f := some) (reads_int_le 4 _ (by decide) (by omega))

theorem reads_ace_signature (b : Bytes) (h : b.length = 7) : Reads signature b b := reads_fixed .little .eightBit (by decide) 7 b h (by decide)

theorem reads_measured {α : Type} {r : Rd α} {v : α} {bs : Bytes} (h : Reads r v bs) : Reads (measured r) (v, bs.length) bs := by
  intro data s hs k stop hp hst
  rw [measured, h data s hs k stop hp hst]
  simp only
  congr 3
  omega

theorem reads_ace_kind (headed : Bool) (k : Kind) (type : Nat) (fields : Bytes) (n : Nat) (h : AceWritten k type fields n) (hh : type = 1 → headed = true) :
    Reads (blockKind headed type) k fields := by
  cases h with
  | header f hf sign hs ns hn r hr av comment ha ha' hc hc' =>
    rw [blockKind, if_pos rfl]
    refine Reads.rbind (reads_bits_word _ (by decide) f hf) ?_
    refine Reads.rbind (reads_ace_signature sign hs) (Reads.rbind (reads_numbers _ ns hn) (Reads.rbind (reads_int_le 8 r (by decide) (by omega)) ?_))
    refine Reads.rbind (reads_ace_av av f _ ha ha' ?_) (Reads.rmap (reads_ace_comment comment f _ hc hc' ?_))
    · simp [splitLE, Nat.div_div_eq_div_mul]
    · simp [splitLE]
  | file f hf packed ns ms hn hm name hl comment hc hc' =>
    rw [blockKind, if_neg (by decide), if_pos rfl]
    refine Reads.rbind (reads_bits_word _ (by decide) f hf) ?_
    refine Reads.rbind (reads_numbers _ _ hn) ?_
    rw [hh rfl, if_pos rfl]
    refine Reads.rbind (reads_numbers _ ms hm) (Reads.rbind (reads_pascal16_le .eightBit (by decide) name hl) (Reads.rmap (reads_ace_comment comment f _ hc hc' ?_)))
    simp [splitLE]
  | recovery f hf size hs hs' first h1 sign hg ns hn =>
    rw [blockKind, if_neg (by decide), if_neg (by decide), if_neg (by decide), if_pos rfl]
    refine Reads.rbind (reads_bits_word _ (by decide) f hf) ?_
    refine Reads.rbind (reads_ace_size size f _ hs hs' ?_) (Reads.rbind (reads_int_le 4 first (by decide) (by omega)) (Reads.rbind (reads_ace_signature sign hg) (Reads.rmap (reads_numbers _ ns hn))))
    simp [splitLE]

theorem ace_type {k : Kind} {type : Nat} {fields : Bytes} {n : Nat} (h : AceWritten k type fields n) : type < 256 ∧ bodyOf k = n ∧ (isHeader k = true ↔ type = 0) := by
  cases h <;> simp [bodyOf, isHeader]

/-- Whether a block has the number of a file. -/
def IsFile : Kind → Prop
  | .file .. => True
  | _ => False

theorem ace_file {k : Kind} {type : Nat} {fields : Bytes} {n : Nat} (h : AceWritten k type fields n) : type = 1 → IsFile k := by
  cases h <;> simp [IsFile]

theorem reads_ace_block (headed : Bool) (b : Block) (bytes : Bytes) (h : AceBlock b bytes) (hh : IsFile b.kind → headed = true) : Reads (block headed) b bytes := by
  obtain ⟨⟨type, fields, n, hw, he, hb, rfl⟩, hc, hs⟩ := h
  obtain ⟨ht, hn, -⟩ := ace_type hw
  have h2 : Reads (Asf.numbers [2, 2]) [b.crc, b.headSize] (leBytes 2 b.crc ++ leBytes 2 b.headSize) := by
    have := reads_numbers [2, 2] [b.crc, b.headSize] ⟨by decide, by omega, by decide, by omega, trivial⟩
    simpa [numsBytes] using this
  have hd : Reads (blockHead headed) ([b.crc, b.headSize], b.kind) (leBytes 2 b.crc ++ leBytes 2 b.headSize ++ (leBytes 1 type ++ fields)) :=
    Reads.rbind h2 (Reads.rbind (reads_int_le 1 type (by decide) (by omega)) (Reads.rmap (reads_ace_kind headed _ _ _ _ hw fun e => hh (ace_file hw e))))
  have hm := reads_measured hd
  have e : leBytes 2 b.crc ++ (leBytes 2 b.headSize ++ (leBytes 1 type ++ (fields ++ (b.extra ++ b.body)))) =
      (leBytes 2 b.crc ++ leBytes 2 b.headSize ++ (leBytes 1 type ++ fields)) ++ (b.extra ++ b.body) := by simp
  rw [e]
  refine Reads.rbind hm (Reads.rbind (reads_ace_rawOr b.extra _ ?_) (Reads.rmap (reads_ace_rawOr b.body _ ?_)))
  · simp [leBytes_length]; omega
  · rw [hb]; exact hn.symm

/-! ## Lists of blocks -/

/-- Whether a block is a header. -/
def aceHeaded : Kind → Bool
  | .header .. => true
  | .file .. => false
  | .newRecovery .. => false

theorem ace_headed (k : Kind) : isHeader k = aceHeaded k := by cases k <;> rfl

/-- Blocks and their bytes, with a header in front of every file. -/
inductive AceBlocks : Bool → List Block → Bytes → Prop where
  | nil (headed : Bool) : AceBlocks headed [] []
  | cons (headed : Bool) (b : Block) (bs : List Block) (x xs : Bytes) (h : AceBlock b x) (hh : IsFile b.kind → headed = true) (hs : AceBlocks (headed || aceHeaded b.kind) bs xs) :
    AceBlocks headed (b :: bs) (x ++ xs)

theorem ace_block_ne {b : Block} {x : Bytes} (h : AceBlock b x) : 0 < x.length := by
  obtain ⟨⟨type, fields, n, hw, he, hb, rfl⟩, hc, hs⟩ := h
  simp [leBytes_length]

theorem blocks_step (n : Nat) (headed : Bool) (b : Block) (s : InputStream) (stop addr behind : Nat) (hlt : addr < stop) (h : block headed s stop addr = .ok (b, behind)) :
    blocks (n + 1) headed s stop addr =
      match blocks n (headed || isHeader b.kind) s stop behind with
      | .error e => .error e
      | .ok (r, behind) => .ok ((b :: r.1, r.2), behind) := by
  rw [blocks, Rd.bind, Rd.eof, decide_eq_false (by omega)]
  show andMore (block headed) _ s stop addr = _
  rw [andMore, h]
  rfl

theorem blocks_stop (n : Nat) (headed : Bool) (s : InputStream) (stop addr : Nat) (e : PyErr) (hlt : addr < stop) (h : block headed s stop addr = .error e) :
    blocks (n + 1) headed s stop addr = .ok (([], some e), addr) := by
  rw [blocks, Rd.bind, Rd.eof, decide_eq_false (by omega)]
  show andMore (block headed) _ s stop addr = _
  rw [andMore, h]

/-- Behind blocks that are read, what is read of the rest is added to them. -/
theorem ace_blocks_then {headed : Bool} {bs : List Block} {xs : Bytes} (hb : AceBlocks headed bs xs) : ∀ (n : Nat) (data : Bytes) (s : InputStream), stringInputStream data = .ok s →
    ∀ (k stop : Nat), xs <+: data.drop k → 8 * (k + xs.length) ≤ stop → ∀ (rest : List Block) (e : Option PyErr) (behind : Nat),
    (blocks n (headed || bs.any fun b => isHeader b.kind) s stop (8 * (k + xs.length)) = .ok ((rest, e), behind)) → blocks (bs.length + n) headed s stop (8 * k) = .ok ((bs ++ rest, e), behind) := by
  induction hb with
  | nil headed =>
    intro n data s hs k stop hp hst rest e behind h
    simpa using h
  | cons headed b bs x xs h hh _ ih =>
    intro n data s hs k stop hp hst rest e behind hr
    have hx := ace_block_ne h
    have hp1 : x <+: data.drop k := (List.prefix_append x xs).trans hp
    have hp2 : xs <+: data.drop (k + x.length) := by
      obtain ⟨t, ht⟩ := hp
      refine ⟨t, ?_⟩
      rw [← List.drop_drop, ← ht, List.append_assoc, List.drop_left]
    rw [List.length_append] at hst hr
    have r1 := reads_ace_block headed b x h hh data s hs k stop hp1 (by omega)
    have r2 := ih n data s hs (k + x.length) stop hp2 (by omega) rest e behind (by
      rw [Nat.add_assoc]
      simpa [Bool.or_assoc, ace_headed] using hr)
    rw [List.length_cons, show bs.length + 1 + n = (bs.length + n) + 1 by omega, blocks_step _ _ _ _ _ _ _ (by omega) r1, ace_headed, r2]
    rfl

/-- **C196** All archives: every block is listed, in order, with its fields, its comment, what its head has beyond the known fields, and its packed bytes. The head may be told too small: then the
block goes on behind its fields. -/
theorem C196_archive (bs : List Block) (xs : Bytes) (h : AceBlocks false bs xs) : ReadsAll (archive (bs.length + 1)) (bs, none) xs := by
  intro data s hs k hp
  refine (ace_blocks_then h 1 data s hs k _ hp (le_refl _) [] none _ ?_).trans (by rw [List.append_nil])
  rw [blocks, Rd.bind, Rd.eof, decide_eq_true (by omega)]
  rfl

/-- A reader that has no result. -/
def Never {α : Type} (r : Rd α) : Prop := ∀ s stop addr, ∃ e, r s stop addr = .error e

theorem never_bind {α β : Type} (r : Rd α) (f : α → Rd β) (h : ∀ a, Never (f a)) : Never (Rd.bind r f) := by
  intro s stop addr
  rw [Rd.bind]
  cases hr : r s stop addr with
  | error e => exact ⟨e, rfl⟩
  | ok p => exact h p.1 s stop p.2

theorem never_first {α β : Type} (r : Rd α) (f : α → Rd β) (h : Never r) : Never (Rd.bind r f) := by
  intro s stop addr
  obtain ⟨e, he⟩ := h s stop addr
  exact ⟨e, by rw [Rd.bind, he]⟩

/-- No block with a number other than 0, 1 and 5 is read. -/
theorem never_kind (headed : Bool) (type : Nat) (h : type ≠ 0 ∧ type ≠ 1 ∧ type ≠ 5) : Never (blockKind headed type) := by
  rw [blockKind, if_neg h.1, if_neg h.2.1]
  split
  · exact never_bind _ _ fun _ s stop addr => ⟨_, rfl⟩
  · rw [if_neg h.2.2]
    exact fun s stop addr => ⟨_, rfl⟩

/-- No file is read in front of the header. -/
theorem never_file : Never (blockKind false 1) := by
  rw [blockKind, if_neg (by decide), if_pos rfl]
  exact never_bind _ _ fun _ => never_bind _ _ fun _ s stop addr => ⟨_, rfl⟩

theorem ace_block_never (headed : Bool) (type : Nat) (hn : Never (blockKind headed type)) (crc size : Nat) (h1 : crc < 65536) (h2 : size < 65536) (h3 : type < 256)
    (data : Bytes) (s : InputStream) (hs : stringInputStream data = .ok s) (k stop : Nat) (hp : leBytes 2 crc ++ (leBytes 2 size ++ leBytes 1 type) <+: data.drop k)
    (hst : 8 * (k + 5) ≤ stop) : ∃ e, block headed s stop (8 * k) = .error e := by
  have h2 : Reads (Asf.numbers [2, 2]) [crc, size] (leBytes 2 crc ++ leBytes 2 size) := by
    have := reads_numbers [2, 2] [crc, size] ⟨by decide, by omega, by decide, by omega, trivial⟩
    simpa [numsBytes] using this
  rw [← List.append_assoc] at hp
  have r1 := h2 data s hs k stop ((List.prefix_append _ _).trans hp) (by simp [leBytes_length]; omega)
  have hp2 : leBytes 1 type <+: data.drop (k + (leBytes 2 crc ++ leBytes 2 size).length) := by
    obtain ⟨t, ht⟩ := hp
    refine ⟨t, ?_⟩
    rw [← List.drop_drop, ← ht, List.append_assoc, List.drop_left]
  have r2 := reads_int_le 1 type (by decide) (by omega) data s hs _ stop hp2 (by simp [leBytes_length]; omega)
  obtain ⟨e, he⟩ := hn s stop (8 * (k + (leBytes 2 crc ++ leBytes 2 size).length + (leBytes 1 type).length))
  refine ⟨e, ?_⟩
  rw [block, Rd.bind, measured, blockHead, Rd.bind, r1]
  simp only
  rw [Rd.bind, r2]
  simp only
  rw [Rd.bind, he]

/-- **C196** Blocks of other kinds, among them the recovery blocks with the number 2, are never read, whatever they hold. They end the list: of the files behind them none is listed. -/
theorem C196_ends (bs : List Block) (xs : Bytes) (h : AceBlocks false bs xs) (crc size type : Nat) (h1 : crc < 65536) (h2 : size < 65536) (h3 : type < 256)
    (ht : type ≠ 0 ∧ type ≠ 1 ∧ type ≠ 5) (rest : Bytes) (data : Bytes) (hd : data = xs ++ (leBytes 2 crc ++ (leBytes 2 size ++ leBytes 1 type) ++ rest)) (s : InputStream)
    (hs : stringInputStream data = .ok s) : ∃ e, archive (bs.length + 1) s (8 * data.length) 0 = .ok ((bs, some e), 8 * xs.length) := by
  subst hd
  obtain ⟨e, he⟩ := ace_block_never (false || bs.any fun b => isHeader b.kind) type (never_kind _ _ ht) crc size h1 h2 h3 _ s hs xs.length (8 * (xs ++ (leBytes 2 crc ++
    (leBytes 2 size ++ leBytes 1 type) ++ rest)).length) (by rw [List.drop_left]; exact List.prefix_append _ _) (by simp [leBytes_length]; omega)
  refine ⟨e, ?_⟩
  have := ace_blocks_then h 1 _ s hs 0 (8 * (xs ++ (leBytes 2 crc ++ (leBytes 2 size ++ leBytes 1 type) ++ rest)).length) (by rw [List.drop_zero]; exact List.prefix_append _ _) (by simp) [] (some e)
    (8 * xs.length) (by rw [Nat.zero_add]; exact blocks_stop 0 _ s _ _ e (by simp [leBytes_length]) he)
  rw [List.append_nil] at this
  exact this

/-- **C196** Without a header in front nothing of an archive is listed. -/
theorem C196_headless (crc size : Nat) (h1 : crc < 65536) (h2 : size < 65536) (rest : Bytes) (data : Bytes) (hd : data = leBytes 2 crc ++ (leBytes 2 size ++ leBytes 1 1) ++ rest) (s : InputStream)
    (hs : stringInputStream data = .ok s) (n : Nat) : ∃ e, archive (n + 1) s (8 * data.length) 0 = .ok (([], some e), 0) := by
  subst hd
  obtain ⟨e, he⟩ := ace_block_never false 1 never_file crc size h1 h2 (by decide) _ s hs 0 (8 * (leBytes 2 crc ++ (leBytes 2 size ++ leBytes 1 1) ++ rest).length)
    (by rw [List.drop_zero]; exact List.prefix_append _ _) (by simp [leBytes_length]; omega)
  exact ⟨e, blocks_stop n false s _ _ e (by simp [leBytes_length]) he⟩

/-- **C196** A file is taken for an archive when the signature is behind its first 7 bytes. -/
theorem C196_valid (front sign rest : Bytes) (hf : front.length = 7) (hl : sign.length = 7) (s : InputStream) (hs : stringInputStream (front ++ (sign ++ rest)) = .ok s) :
    validate s = .ok (decide (sign = "**ACE**".toUTF8.toList)) := by
  have e : "**ACE**".toUTF8.toList = [0x2A, 0x2A, 0x41, 0x43, 0x45, 0x2A, 0x2A] := by decide +kernel
  have := readBytes_prefix _ s hs 7 sign (by rw [← hf, List.drop_left]; exact List.prefix_append _ _)
  rw [hl] at this
  rw [validate, e]
  rw [show (7 * 8 : Int) = ((8 * 7 : Nat) : Int) by norm_num]
  rw [this]
  exact congrArg Except.ok (beq_eq_decide _ _)

/-- The flags of a header with a comment and of a file with none. -/
example : AceBlocks false
    [⟨0x1234, 30, .header (splitLE [1, 1, 7, 1, 1, 1, 1, 1, 1, 1] 2) [0x2A, 0x2A, 0x41, 0x43, 0x45, 0x2A, 0x2A] [20, 20, 2, 0, 0x3A5B6C7D] 0 none (some [9]), [5], []⟩,
      ⟨0x4321, 0, .file (splitLE [1, 1, 10, 1, 1, 1, 1] 0) ([2, 3, 4] ++ [32, 7, 1, 3, 10, 0]) [0x61] none, [], [8, 8]⟩]
    ([0x34, 0x12, 30, 0, 0, 2, 0, 0x2A, 0x2A, 0x41, 0x43, 0x45, 0x2A, 0x2A, 20, 20, 2, 0, 0x7D, 0x6C, 0x5B, 0x3A, 0, 0, 0, 0, 0, 0, 0, 0, 1, 0, 9] ++ [5] ++
      ([0x21, 0x43, 0, 0, 1, 0, 0, 2, 0, 0, 0, 3, 0, 0, 0, 4, 0, 0, 0, 32, 0, 0, 0, 7, 0, 0, 0, 1, 3, 10, 0, 0, 0, 1, 0, 0x61, 8, 8] ++ [])) := by
  refine .cons _ _ _ _ _ ⟨⟨0, _, 0, .header 2 (by decide) _ rfl _ (by simp [NumsFit]) 0 (by decide) none (some [9]) (by decide) (by simp) (by decide) (by simp), by decide, rfl, by decide⟩,
    by decide, by decide⟩ (by simp [IsFile]) ?_
  refine .cons _ _ _ _ _ ⟨⟨1, _, 2, .file 0 (by decide) 2 [3, 4] [32, 7, 1, 3, 10, 0] (by simp [NumsFit]) (by simp [NumsFit]) [0x61] (by decide) none (by decide) (by simp), by decide, rfl, by decide⟩,
    by decide, by decide⟩ (by simp [aceHeaded]) ?_
  exact .nil _

end Hachoir.Props

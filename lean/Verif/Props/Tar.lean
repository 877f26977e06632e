import Verif.Formats.Tar
import Verif.Props.Records
import Verif.Props.Bencode

/-!
# C100: tar archives
-/

namespace Hachoir.Props
open Hachoir Hachoir.Stream Hachoir.Formats Hachoir.Formats.Tar Spec

/-! ## What the bytes of an archive are -/

/-- A column of a header: a text between blanks. -/
structure TarText where
  before : Bytes
  text : Bytes
  after : Bytes

def TarText.bytes (c : TarText) : Bytes := c.before ++ c.text ++ c.after

/-- A column of `n` bytes; `blanks` are those around the text, which does not begin or end with one. -/
def TarText.Good (c : TarText) (n : Nat) (blanks : Bytes) : Prop :=
  c.bytes.length = n ∧ (∀ x ∈ c.before, x ∈ blanks) ∧ (∀ x ∈ c.after, x ∈ blanks) ∧
    (∀ x ∈ c.text.head?, x ∉ blanks) ∧ (∀ x ∈ c.text.getLast?, x ∉ blanks)

/-- The value of octal digits, the first the highest. -/
def octalValue : Bytes → Nat
  | [] => 0
  | c :: cs => (c.toNat - 48) * 8 ^ cs.length + octalValue cs

def OctalDigits (t : Bytes) : Prop := t ≠ [] ∧ ∀ c ∈ t, 48 ≤ c.toNat ∧ c.toNat ≤ 55

/-- A file of an archive: the columns of its header, its content and what fills up its last block. -/
structure TarItem where
  name : TarText
  mode : TarText
  uid : TarText
  gid : TarText
  size : TarText
  mtime : TarText
  checkSum : TarText
  type : UInt8
  lname : TarText
  magic : TarText
  uname : TarText
  gname : TarText
  devMajor : TarText
  devMinor : TarText
  pre : TarText
  gap : Bytes
  content : Bytes
  fill : Bytes

def TarItem.parts (i : TarItem) : List Bytes :=
  [i.name.bytes, i.mode.bytes, i.uid.bytes, i.gid.bytes, i.size.bytes, i.mtime.bytes, i.checkSum.bytes, [i.type],
    i.lname.bytes, i.magic.bytes, i.uname.bytes, i.gname.bytes, i.devMajor.bytes, i.devMinor.bytes, i.pre.bytes, i.gap,
    i.content, i.fill]

def TarItem.bytes (i : TarItem) : Bytes := i.parts.flatten

/-- The columns have their lengths. -/
structure TarItem.Columns (i : TarItem) : Prop where
  name : i.name.Good 100 [0]
  mode : i.mode.Good 8 [0, 32]
  uid : i.uid.Good 8 [0, 32]
  gid : i.gid.Good 8 [0, 32]
  size : i.size.Good 12 [0, 32]
  mtime : i.mtime.Good 12 [0, 32]
  checkSum : i.checkSum.Good 8 [0, 32]
  lname : i.lname.Good 100 [0, 32]
  magic : i.magic.Good 8 [0, 32]
  uname : i.uname.Good 32 [0, 32]
  gname : i.gname.Good 32 [0, 32]
  devMajor : i.devMajor.Good 8 [0, 32]
  devMinor : i.devMinor.Good 8 [0, 32]
  pre : i.pre.Good 155 [0]
  gap : i.gap.length = 12

/-- A file of an archive: it has a name, its size is written with octal digits, and it is filled up to whole
blocks. -/
structure TarItem.Good (i : TarItem) : Prop extends i.Columns where
  named : i.name.text ≠ []
  digits : OctalDigits i.size.text
  value : octalValue i.size.text = i.content.length
  block : (i.content.length + i.fill.length) % 512 = 0
  short : i.fill.length < 512

/-- The header to be shown. -/
def TarItem.header (i : TarItem) : Tar.Header :=
  ⟨i.name.text, i.mode.text, i.uid.text, i.gid.text, i.size.text, i.mtime.text, i.checkSum.text, i.type.toNat, i.lname.text,
    i.magic.text, i.uname.text, i.gname.text, i.devMajor.text, i.devMinor.text, i.pre.text⟩

/-- The entry to be shown for a file at the byte `k`. -/
def TarItem.entry (i : TarItem) (k : Nat) : Tar.Entry :=
  ⟨i.header, 8 * k, 8 * i.bytes.length, if i.content = [] then none else some (8 * (k + 512), 8 * i.content.length)⟩

def tarPlaces : Nat → List TarItem → List Tar.Entry
  | _, [] => []
  | k, i :: is => i.entry k :: tarPlaces (k + i.bytes.length) is

/-! ## Texts and numbers -/

theorem strip_text {α : Type} (f : α → Bool) (before text after : List α) (hb : ∀ x ∈ before, f x = true) (ha : ∀ x ∈ after, f x = true)
    (h1 : ∀ x ∈ text.head?, f x = false) (h2 : ∀ x ∈ text.getLast?, f x = false) :
    Field.stripText f (before ++ text ++ after) = text := by
  unfold Field.stripText
  rw [List.append_assoc, dropWhile_all _ _ hb]
  cases text with
  | nil =>
    have h := dropWhile_all after [] ha
    rw [List.append_nil] at h
    rw [List.nil_append, h]
    rfl
  | cons c t =>
    have e : ((c :: t) ++ after).dropWhile f = (c :: t) ++ after := dropWhile_head _ (by
      intro x hx
      exact h1 x (by simpa using hx))
    rw [e, List.reverse_append, dropWhile_all _ _ (fun x hx => ha x (List.mem_reverse.1 hx)), dropWhile_head, List.reverse_reverse]
    intro x hx
    exact h2 x (by rw [List.head?_reverse] at hx; exact hx)

theorem isNul_iff (c : UInt8) : isNul c = true ↔ c ∈ ([0] : Bytes) := by
  unfold isNul; simp

theorem isBlank_iff (c : UInt8) : isBlank c = true ↔ c ∈ ([0, 32] : Bytes) := by
  unfold isBlank; simp

theorem good_strip (f : UInt8 → Bool) (blanks : Bytes) (hf : ∀ c, f c = true ↔ c ∈ blanks) (c : TarText) (n : Nat)
    (hc : c.Good n blanks) : Field.stripText f c.bytes = c.text := by
  obtain ⟨_, hb, ha, h1, h2⟩ := hc
  have hn : ∀ x, x ∉ blanks → f x = false := fun x hx => by
    cases h : f x with
    | true => exact absurd ((hf x).1 h) hx
    | false => rfl
  exact strip_text f _ _ _ (fun x hx => (hf x).2 (hb x hx)) (fun x hx => (hf x).2 (ha x hx))
    (fun x hx => hn x (h1 x hx)) (fun x hx => hn x (h2 x hx))

theorem read_column (data : Bytes) (s : InputStream) (hs : stringInputStream data = .ok s) (k off n : Nat) (f : UInt8 → Bool)
    (blanks : Bytes) (hf : ∀ c, f c = true ↔ c ∈ blanks) (c : TarText) (hc : c.Good n blanks)
    (hp : c.bytes <+: data.drop (k + off)) : column s (8 * k) off n f = .ok c.text := by
  unfold column
  have r : readBytes s _ _ = _ := readBytes_prefix data s hs _ _ hp
  rw [hc.1] at r
  rw [show 8 * k + 8 * off = 8 * (k + off) by omega, r]
  simp only
  rw [good_strip f blanks hf c n hc]

theorem octDigits_value : ∀ (t : Bytes), (∀ c ∈ t, 48 ≤ c.toNat ∧ c.toNat ≤ 55) → ∀ (acc : Nat) (b : Bool), (t ≠ [] ∨ b = true) →
    octDigits acc b t = some (acc * 8 ^ t.length + octalValue t)
  | [], _, acc, b, h => by
    rw [octDigits, if_pos (h.resolve_left (by simp))]
    simp [octalValue]
  | c :: t, hd, acc, b, _ => by
    rw [octDigits, if_pos (hd c (by simp)), octDigits_value t (fun x hx => hd x (by simp [hx])) _ true (Or.inr rfl)]
    congr 1
    rw [octalValue, List.length_cons]
    ring

theorem octBody_value (t : Bytes) (h : OctalDigits t) : octBody t = some (octalValue t) := by
  have e := octDigits_value t h.2 0 false (Or.inl h.1)
  rw [Nat.zero_mul, Nat.zero_add] at e
  rw [← e]
  unfold octBody
  split
  · rename_i c d x cs
    have := h.2 d (by simp)
    rw [if_neg (by omega)]
  · rfl

theorem C100_octal (t : Bytes) (h : OctalDigits t) : octal2int t = octalValue t := by
  unfold octal2int pyOct
  rw [strip_space _ (fun c hc => digit_not_space c (by have := h.2 c hc; omega))]
  cases hd : t with
  | nil => exact absurd hd h.1
  | cons c cs =>
    have hc := h.2 c (by rw [hd]; simp)
    simp only
    rw [if_neg (by omega), if_neg (by omega), ← hd, octBody_value t h]
    rfl

/-- Anything else at the beginning of the text, as the first byte of a number in base 256, gives zero. -/
theorem C100_octal_other (c : UInt8) (cs : Bytes) (h : c ∉ aroundNumbers) (hs : c ≠ 43 ∧ c ≠ 45)
    (hd : c.toNat < 48 ∨ 55 < c.toNat) : octal2int (c :: cs) = 0 := by
  have hns : isPySpace c = false := by
    cases e : isPySpace c with
    | true => exact absurd ((space_iff c).1 e) h
    | false => rfl
  unfold octal2int pyOct
  obtain ⟨before, after, h1, h2, h3⟩ := strip_split (c :: cs)
  obtain ⟨m, hm⟩ : ∃ m, (((c :: cs).dropWhile isPySpace).reverse.dropWhile isPySpace).reverse = m := ⟨_, rfl⟩
  rw [hm] at h1 ⊢
  cases before with
  | cons b bs =>
    rw [List.cons_append, List.cons_append, List.cons.injEq] at h1
    have := h2 b (by simp)
    rw [← h1.1, hns] at this
    cases this
  | nil =>
    cases m with
    | nil =>
      have := h3 c (by rw [List.nil_append, List.nil_append] at h1; rw [← h1]; simp)
      rw [hns] at this
      cases this
    | cons x m =>
      rw [List.nil_append, List.cons_append, List.cons.injEq] at h1
      obtain ⟨rfl, _⟩ := h1
      have e1 : c.toNat ≠ 43 := fun e => hs.1 (UInt8.toNat_inj.1 e)
      have e2 : c.toNat ≠ 45 := fun e => hs.2 (UInt8.toNat_inj.1 e)
      have none_digits : ∀ l, octDigits 0 false (c :: l) = none := by
        intro l
        rw [octDigits, if_neg (by omega), if_neg (by simp)]
      simp only
      rw [if_neg e2, if_neg e1]
      have : octBody (c :: m) = none := by
        unfold octBody
        split
        · rename_i x d e l heq
          rw [List.cons.injEq] at heq
          obtain ⟨rfl, rfl⟩ := heq
          rw [if_neg (by omega), none_digits]
        · exact none_digits m
      rw [this]
      rfl

/-! ## Entries -/

theorem read_tar_header (data : Bytes) (s : InputStream) (hs : stringInputStream data = .ok s) (i : TarItem) (h : i.Columns)
    (k : Nat) (hp : i.bytes <+: data.drop k) : Tar.readHeader s (8 * k) = .ok i.header := by
  unfold TarItem.bytes TarItem.parts at hp
  have l1 := h.name.1
  have l2 := h.mode.1
  have l3 := h.uid.1
  have l4 := h.gid.1
  have l5 := h.size.1
  have l6 := h.mtime.1
  have l7 := h.checkSum.1
  have l8 := h.lname.1
  have l9 := h.magic.1
  have l10 := h.uname.1
  have l11 := h.gname.1
  have l12 := h.devMajor.1
  have l13 := h.devMinor.1
  have c0 := read_column data s hs k 0 100 isNul _ isNul_iff _ h.name (record_part _ 0 _ rfl _ (by simp) hp)
  have c1 := read_column data s hs k 100 8 isBlank _ isBlank_iff _ h.mode (record_part _ 1 _ rfl _ (by simp [l1]) hp)
  have c2 := read_column data s hs k 108 8 isBlank _ isBlank_iff _ h.uid (record_part _ 2 _ rfl _ (by simp [l1, l2]) hp)
  have c3 := read_column data s hs k 116 8 isBlank _ isBlank_iff _ h.gid (record_part _ 3 _ rfl _ (by simp [l1, l2, l3]) hp)
  have c4 := read_column data s hs k 124 12 isBlank _ isBlank_iff _ h.size (record_part _ 4 _ rfl _ (by simp [l1, l2, l3, l4]) hp)
  have c5 := read_column data s hs k 136 12 isBlank _ isBlank_iff _ h.mtime (record_part _ 5 _ rfl _ (by simp [l1, l2, l3, l4, l5]) hp)
  have c6 := read_column data s hs k 148 8 isBlank _ isBlank_iff _ h.checkSum
    (record_part _ 6 _ rfl _ (by simp [l1, l2, l3, l4, l5, l6]) hp)
  have c7 := read_byte data s hs (k + 156) i.type .big (by simp)
    (record_part _ 7 _ rfl _ (by simp [l1, l2, l3, l4, l5, l6, l7]) hp) ((8 * k + 8 * 156 : Nat) : Int) (by push_cast; ring)
  have c8 := read_column data s hs k 157 100 isBlank _ isBlank_iff _ h.lname
    (record_part _ 8 _ rfl _ (by simp [l1, l2, l3, l4, l5, l6, l7]) hp)
  have c9 := read_column data s hs k 257 8 isBlank _ isBlank_iff _ h.magic
    (record_part _ 9 _ rfl _ (by simp [l1, l2, l3, l4, l5, l6, l7, l8]) hp)
  have c10 := read_column data s hs k 265 32 isBlank _ isBlank_iff _ h.uname
    (record_part _ 10 _ rfl _ (by simp [l1, l2, l3, l4, l5, l6, l7, l8, l9]) hp)
  have c11 := read_column data s hs k 297 32 isBlank _ isBlank_iff _ h.gname
    (record_part _ 11 _ rfl _ (by simp [l1, l2, l3, l4, l5, l6, l7, l8, l9, l10]) hp)
  have c12 := read_column data s hs k 329 8 isBlank _ isBlank_iff _ h.devMajor
    (record_part _ 12 _ rfl _ (by simp [l1, l2, l3, l4, l5, l6, l7, l8, l9, l10, l11]) hp)
  have c13 := read_column data s hs k 337 8 isBlank _ isBlank_iff _ h.devMinor
    (record_part _ 13 _ rfl _ (by simp [l1, l2, l3, l4, l5, l6, l7, l8, l9, l10, l11, l12]) hp)
  have c14 := read_column data s hs k 345 155 isNul _ isNul_iff _ h.pre
    (record_part _ 14 _ rfl _ (by simp [l1, l2, l3, l4, l5, l6, l7, l8, l9, l10, l11, l12, l13]) hp)
  unfold Tar.readHeader
  rw [c0, c1, c2, c3, c4, c5, c6, c7, c8, c9, c10, c11, c12, c13, c14]
  rfl

theorem tar_length (i : TarItem) (h : i.Columns) : i.bytes.length = 512 + i.content.length + i.fill.length := by
  unfold TarItem.bytes TarItem.parts
  simp only [List.flatten_cons, List.flatten_nil, List.append_nil, List.length_append, h.name.1, h.mode.1, h.uid.1, h.gid.1, h.size.1,
    h.mtime.1, h.checkSum.1, h.lname.1, h.magic.1, h.uname.1, h.gname.1, h.devMajor.1, h.devMinor.1, h.pre.1, h.gap,
    List.length_cons, List.length_nil]
  omega

theorem block_padding (n m : Nat) (h : (n + m) % 512 = 0) (hm : m < 512) : Tools.paddingSize (512 + (n : Int)) 512 = .ok (m : Int) := by
  unfold Tools.paddingSize
  rw [if_neg (by omega), Int.fmod_eq_emod_of_nonneg _ (by omega)]
  split
  · exact congrArg Except.ok (by omega)
  · exact congrArg Except.ok (by omega)

theorem C100_entry (data : Bytes) (s : InputStream) (hs : stringInputStream data = .ok s) (i : TarItem) (h : i.Good)
    (k stop : Nat) (hp : i.bytes <+: data.drop k) (hstop : 8 * (k + i.bytes.length) ≤ stop) :
    readEntry s (8 * k) stop = .ok (i.entry k) := by
  have hl := tar_length i h.toColumns
  unfold readEntry
  rw [read_tar_header data s hs i h.toColumns k hp]
  have e : octal2int i.header.size = ((i.content.length : Nat) : Int) := by
    rw [← h.value]
    exact C100_octal _ h.digits
  simp only
  rw [e, if_neg (by omega), block_padding _ _ h.block h.short]
  simp only [Int.toNat_natCast]
  rw [if_neg (by omega)]
  unfold TarItem.entry
  rw [hl]
  simp only [Int.natCast_eq_zero, List.length_eq_zero_iff]
  rw [show 8 * k + 8 * 512 = 8 * (k + 512) by omega]

/-- The files of an archive up to the block of zeros, whatever comes behind. -/
theorem C100_entries (data : Bytes) (s : InputStream) (hs : stringInputStream data = .ok s) (is : List TarItem)
    (hi : ∀ i ∈ is, i.Good) (k fuel : Nat) (hf : is.length < fuel)
    (hp : (is.map TarItem.bytes).flatten ++ List.replicate 512 0 <+: data.drop k) :
    readEntries s fuel (8 * k) (8 * data.length) =
      .ok (tarPlaces k is, some (8 * (k + (is.map TarItem.bytes).flatten.length))) := by
  induction is generalizing k fuel with
  | nil =>
    obtain ⟨fuel, rfl⟩ : ∃ f, fuel = f + 1 := ⟨fuel - 1, by simp at hf; omega⟩
    have hlen := hp.length_le
    simp only [List.map_nil, List.flatten_nil, List.nil_append, List.length_replicate, List.length_drop] at hlen hp
    rw [readEntries, if_pos (by omega)]
    have c := read_column data s hs k 0 100 isNul _ isNul_iff ⟨List.replicate 100 0, [], []⟩
      ⟨by simp [TarText.bytes], by simp, by simp, by simp, by simp⟩ (by
        refine List.IsPrefix.trans ?_ hp
        exact ⟨List.replicate 412 0, by simp only [TarText.bytes, List.append_nil]; rw [List.replicate_append_replicate]⟩)
    rw [c]
    simp only
    rw [if_neg (by omega)]
    rfl
  | cons i is ih =>
    obtain ⟨fuel, rfl⟩ : ∃ f, fuel = f + 1 := ⟨fuel - 1, by simp at hf; omega⟩
    have h := hi i (by simp)
    have hl := tar_length i h.toColumns
    simp only [List.map_cons, List.flatten_cons] at hp ⊢
    rw [List.append_assoc] at hp
    have hlen := hp.length_le
    simp only [List.length_append, List.length_drop] at hlen
    have pi := prefix_left hp
    have pn : i.name.bytes <+: data.drop (k + 0) := by
      have pi' := pi
      unfold TarItem.bytes TarItem.parts at pi'
      exact record_part _ 0 _ rfl _ (by simp) pi'
    rw [readEntries, if_pos (by omega), read_column data s hs k 0 100 isNul _ isNul_iff _ h.name pn]
    obtain ⟨c, t, ht⟩ := List.exists_cons_of_ne_nil h.named
    rw [ht]
    simp only
    rw [C100_entry data s hs i h k _ pi (by omega)]
    have e : 8 * k + (i.entry k).size = 8 * (k + i.bytes.length) := by
      show 8 * k + 8 * i.bytes.length = _
      omega
    simp only
    rw [e, ih (fun x hx => hi x (by simp [hx])) (k + i.bytes.length) fuel (by simp at hf; omega) (drop_prefix hp)]
    simp only [tarPlaces, List.length_append]
    rw [Nat.add_assoc]

/-- The files of an archive that ends with the last of them. -/
theorem C100_entries_end (data : Bytes) (s : InputStream) (hs : stringInputStream data = .ok s) (is : List TarItem)
    (hi : ∀ i ∈ is, i.Good) (k fuel : Nat) (hf : is.length < fuel) (hp : (is.map TarItem.bytes).flatten = data.drop k) :
    readEntries s fuel (8 * k) (8 * data.length) = .ok (tarPlaces k is, none) := by
  induction is generalizing k fuel with
  | nil =>
    obtain ⟨fuel, rfl⟩ : ∃ f, fuel = f + 1 := ⟨fuel - 1, by simp at hf; omega⟩
    have hlen := congrArg List.length hp
    simp only [List.map_nil, List.flatten_nil, List.length_nil, List.length_drop] at hlen
    rw [readEntries, if_neg (by omega)]
    rfl
  | cons i is ih =>
    obtain ⟨fuel, rfl⟩ : ∃ f, fuel = f + 1 := ⟨fuel - 1, by simp at hf; omega⟩
    have h := hi i (by simp)
    have hl := tar_length i h.toColumns
    simp only [List.map_cons, List.flatten_cons] at hp
    have hlen := congrArg List.length hp
    simp only [List.length_append, List.length_drop] at hlen
    have pi : i.bytes <+: data.drop k := ⟨_, hp⟩
    have pn : i.name.bytes <+: data.drop (k + 0) := by
      have pi' := pi
      unfold TarItem.bytes TarItem.parts at pi'
      exact record_part _ 0 _ rfl _ (by simp) pi'
    rw [readEntries, if_pos (by omega), read_column data s hs k 0 100 isNul _ isNul_iff _ h.name pn]
    obtain ⟨c, t, ht⟩ := List.exists_cons_of_ne_nil h.named
    rw [ht]
    simp only
    rw [C100_entry data s hs i h k _ pi (by omega)]
    have e : 8 * k + (i.entry k).size = 8 * (k + i.bytes.length) := by
      show 8 * k + 8 * i.bytes.length = _
      omega
    simp only
    rw [e, ih (fun x hx => hi x (by simp [hx])) (k + i.bytes.length) fuel (by simp at hf; omega) (by
      rw [← List.drop_drop, ← hp, List.drop_left])]
    simp only [tarPlaces]

/-- The content ends with the first block of zeros. -/
theorem C100_content_size (data : Bytes) (s : InputStream) (hs : stringInputStream data = .ok s) (is : List TarItem)
    (hi : ∀ i ∈ is, i.Good) (fuel : Nat) (hf : is.length < fuel)
    (hp : (is.map TarItem.bytes).flatten ++ List.replicate 512 0 <+: data) :
    contentSize s fuel (8 * data.length) = .ok (8 * ((is.map TarItem.bytes).flatten.length + 512)) := by
  have := C100_entries data s hs is hi 0 fuel hf hp
  unfold contentSize
  rw [Nat.mul_zero] at this
  rw [this]
  exact congrArg Except.ok (by omega)

/-- An archive without such a block has no content size. -/
theorem C100_no_terminator (data : Bytes) (s : InputStream) (hs : stringInputStream data = .ok s) (is : List TarItem)
    (hi : ∀ i ∈ is, i.Good) (fuel : Nat) (hf : is.length < fuel) (hp : (is.map TarItem.bytes).flatten = data) :
    contentSize s fuel (8 * data.length) = .error .missingField := by
  have := C100_entries_end data s hs is hi 0 fuel hf hp
  unfold contentSize
  rw [Nat.mul_zero] at this
  rw [this]

/-- Violation: a size in base 256 (files of 8 GiB and more) is taken as zero, so that the content has no field
and is read as the next entries. -/
theorem C100_big_size (data : Bytes) (s : InputStream) (hs : stringInputStream data = .ok s) (i : TarItem) (h : i.Columns)
    (c : UInt8) (cs : Bytes) (ht : i.size.text = c :: cs) (hc : c = 0x80 ∨ c = 0xff) (k stop : Nat)
    (hp : i.bytes <+: data.drop k) (hstop : 8 * (k + 512) ≤ stop) :
    readEntry s (8 * k) stop = .ok ⟨i.header, 8 * k, 8 * 512, none⟩ := by
  unfold readEntry
  rw [read_tar_header data s hs i h k hp]
  have e : octal2int i.header.size = ((0 : Nat) : Int) := by
    show octal2int i.size.text = _
    rw [ht]
    apply C100_octal_other
    · rcases hc with rfl | rfl <;> decide
    · rcases hc with rfl | rfl <;> decide
    · rcases hc with rfl | rfl <;> decide
  simp only
  rw [e, if_neg (by omega), block_padding 0 0 (by omega) (by omega)]
  simp only [Int.toNat_natCast]
  rw [if_neg (by omega)]
  rfl

/-- Archives with a known mark and numbers are accepted. -/
theorem C100_validate (data : Bytes) (s : InputStream) (hs : stringInputStream data = .ok s) (i : TarItem) (h : i.Good)
    (hm : (∃ n rest, i.magic.bytes = [117, 115, 116, 97, 114] ++ List.replicate n 32 ++ 0 :: rest) ∨ i.magic.text = [])
    (hu : OctalDigits i.uid.text) (hg : OctalDigits i.gid.text) (hp : i.bytes <+: data) :
    validate s (8 * data.length) = .ok true := by
  have number : ∀ t, OctalDigits t → (pyOct t).isSome = true := by
    intro t ht
    unfold pyOct
    rw [strip_space _ (fun c hc => digit_not_space c (by have := ht.2 c hc; omega))]
    cases hd : t with
    | nil => exact absurd hd ht.1
    | cons c cs =>
      have hc := ht.2 c (by rw [hd]; simp)
      simp only
      rw [if_neg (by omega), if_neg (by omega), ← hd, octBody_value t ht]
      rfl
  have hlen := hp.length_le
  have hl := tar_length i h.toColumns
  have pm : i.magic.bytes <+: data.drop 257 := by
    have hp' : i.bytes <+: data.drop 0 := hp
    unfold TarItem.bytes TarItem.parts at hp'
    exact record_part _ 9 _ rfl _ (by simp [h.name.1, h.mode.1, h.uid.1, h.gid.1, h.size.1, h.mtime.1, h.checkSum.1, h.lname.1]) hp'
  have pn : i.name.bytes <+: data.drop (0 + 0) := by
    have hp' : i.bytes <+: data.drop 0 := hp
    unfold TarItem.bytes TarItem.parts at hp'
    exact record_part _ 0 _ rfl _ (by simp) hp'
  have rm : readBytes s _ _ = _ := readBytes_prefix data s hs _ _ pm
  rw [h.magic.1] at rm
  have mark : (ustarMark i.magic.bytes || blankMark i.magic.bytes) = true := by
    rw [Bool.or_eq_true]
    rcases hm with ⟨n, rest, e⟩ | e
    · left
      rw [e]
      unfold ustarMark
      have a1 : List.take 5 ([117, 115, 116, 97, 114] ++ List.replicate n 32 ++ 0 :: rest : Bytes) = [117, 115, 116, 97, 114] := by
        rw [List.append_assoc]; rfl
      have a2 : List.drop 5 ([117, 115, 116, 97, 114] ++ List.replicate n 32 ++ 0 :: rest : Bytes) = List.replicate n 32 ++ 0 :: rest := by
        rw [List.append_assoc]; rfl
      rw [a1, a2, dropWhile_all _ _ (by intro c hc; simp [List.eq_of_mem_replicate hc])]
      rfl
    · right
      obtain ⟨_, hb, ha, _, _⟩ := h.magic
      unfold blankMark TarText.bytes
      rw [e, List.append_nil]
      have z := dropWhile_all (p := isBlank) (i.magic.before ++ i.magic.after) [] (by
        intro c hc
        rw [isBlank_iff]
        rcases List.mem_append.1 hc with hc | hc
        · exact hb c hc
        · exact ha c hc)
      rw [List.append_nil] at z
      rw [z]
      rfl
  unfold validate
  rw [show 257 * 8 = 8 * 257 by rfl, rm]
  simp only
  rw [if_pos mark]
  have c0 := read_column data s hs 0 0 100 isNul _ isNul_iff _ h.name pn
  rw [Nat.mul_zero] at c0
  rw [c0]
  obtain ⟨c, t, ht⟩ := List.exists_cons_of_ne_nil h.named
  rw [ht]
  simp only
  have ce := C100_entry data s hs i h 0 (8 * data.length) hp (by omega)
  rw [Nat.mul_zero] at ce
  rw [ce]
  have e1 : (pyOct (i.entry 0).header.uid).isSome = true := number _ hu
  have e2 : (pyOct (i.entry 0).header.gid).isSome = true := number _ hg
  have e3 : (pyOct (i.entry 0).header.size).isSome = true := number _ h.digits
  simp only
  rw [e1, e2, e3]
  rfl

/-- The whole name is the prefix, a slash and the name. -/
def TarItem.path (i : TarItem) : Bytes :=
  if i.pre.text = [] then i.name.text else i.pre.text ++ [47] ++ i.name.text

theorem C100_described (i : TarItem) : describedName i.header = i.path := by
  unfold describedName TarItem.path TarItem.header
  simp

/-- Violation: the name given to the content and in the metadata lacks the prefix. -/
theorem C100_prefix_lost (i : TarItem) (h : i.pre.text ≠ []) : fileName i.header ≠ i.path := by
  intro e
  have e' : i.name.text = i.path := e
  unfold TarItem.path at e'
  rw [if_neg h] at e'
  have := congrArg List.length e'
  simp only [List.length_append, List.length_cons, List.length_nil] at this
  omega

/-- A file that begins with a block of zeros, an archive without files, is not accepted. -/
theorem C100_no_file (data : Bytes) (s : InputStream) (hs : stringInputStream data = .ok s) (stop : Nat)
    (hp : List.replicate 100 0 <+: data) (hl : 265 ≤ data.length) : validate s stop = .ok false := by
  have hm := _root_.Props.C04_readBytes data s hs 257 8
  rw [if_pos (by omega)] at hm
  have hc : column s 0 0 100 isNul = .ok [] := by
    have := read_column data s hs 0 0 100 isNul [0] isNul_iff ⟨[], [], List.replicate 100 0⟩
      ⟨by decide, by simp, by simp, by simp, by simp⟩ (by simpa [TarText.bytes] using hp)
    exact this
  unfold validate
  rw [show 257 * 8 = 8 * 257 from rfl, hm]
  simp only
  rw [hc]
  split <;> rfl

/-! ## Examples -/

/-- A text padded with zeros. -/
def tarText (n : Nat) (t : Bytes) : TarText := ⟨[], t, List.replicate (n - t.length) 0⟩

/-- A file `a/b` of three bytes. -/
def sampleTar : TarItem :=
  ⟨tarText 100 [97, 47, 98], tarText 8 [48, 54, 52, 52], tarText 8 [48], tarText 8 [48], ⟨[32, 32], [48, 48, 51], List.replicate 7 0⟩,
    tarText 12 [49, 51], tarText 8 [48], 48, tarText 100 [], tarText 8 [117, 115, 116, 97, 114], tarText 32 [114], tarText 32 [114],
    tarText 8 [], tarText 8 [], tarText 155 [112], List.replicate 12 0, [1, 2, 3], List.replicate 509 0⟩

theorem sampleTar_good : sampleTar.Good where
  name := by unfold TarText.Good; decide +kernel
  mode := by unfold TarText.Good; decide +kernel
  uid := by unfold TarText.Good; decide +kernel
  gid := by unfold TarText.Good; decide +kernel
  size := by unfold TarText.Good; decide +kernel
  mtime := by unfold TarText.Good; decide +kernel
  checkSum := by unfold TarText.Good; decide +kernel
  lname := by unfold TarText.Good; decide +kernel
  magic := by unfold TarText.Good; decide +kernel
  uname := by unfold TarText.Good; decide +kernel
  gname := by unfold TarText.Good; decide +kernel
  devMajor := by unfold TarText.Good; decide +kernel
  devMinor := by unfold TarText.Good; decide +kernel
  pre := by unfold TarText.Good; decide +kernel
  gap := by decide +kernel
  named := by decide +kernel
  digits := by unfold OctalDigits; decide +kernel
  value := by decide +kernel
  block := by decide +kernel
  short := by decide +kernel

/-- Two files, a block of zeros and the rest of the last record. -/
example (s : InputStream) (hs : stringInputStream (sampleTar.bytes ++ (sampleTar.bytes ++ List.replicate 512 0) ++ [7]) = .ok s) :
    readEntries s 3 (8 * 0) (8 * (sampleTar.bytes ++ (sampleTar.bytes ++ List.replicate 512 0) ++ [7]).length) =
      .ok ([sampleTar.entry 0, sampleTar.entry 1024], some (8 * 2048)) := by
  have h2 : ∀ i ∈ [sampleTar, sampleTar], i.Good := by
    intro i hi
    have : i = sampleTar := by simpa using hi
    rw [this]
    exact sampleTar_good
  have hl : sampleTar.bytes.length = 1024 := by
    rw [tar_length _ sampleTar_good.toColumns]
    decide +kernel
  have := C100_entries _ s hs [sampleTar, sampleTar] h2 0 3 (by decide) (by
    refine ⟨[7], ?_⟩
    simp only [List.map_cons, List.map_nil, List.flatten_cons, List.flatten_nil, List.append_nil, List.append_assoc, List.drop_zero])
  rw [this]
  simp only [tarPlaces, hl, List.map_cons, List.map_nil, List.flatten_cons, List.flatten_nil, List.append_nil, List.length_append,
    Nat.zero_add]

example : (sampleTar.entry 1024).content = some (8 * 1536, 24) := by decide +kernel

example : sampleTar.path = [112, 47, 97, 47, 98] := by decide +kernel

end Hachoir.Props

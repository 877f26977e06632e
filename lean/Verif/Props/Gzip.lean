import Verif.Formats.Gzip
import Verif.Props.Zip
import Verif.Props.StringField

/-!
# C102: gzip archives
-/

namespace Hachoir.Props
open Hachoir Hachoir.Stream Hachoir.Field Hachoir.Formats Hachoir.Formats.Zip Hachoir.Formats.Gzip Spec

/-! ## What the bytes of an archive are (RFC 1952) -/

structure GzipSpec where
  method : UInt8
  text : Bool
  mtime : Nat
  slow : Bool
  fast : Bool
  os : UInt8
  /-- Bits that must be zero. -/
  reserved0 : Nat
  reserved1 : Nat
  reserved2 : Nat
  extra : Option Bytes
  name : Option Bytes
  comment : Option Bytes
  crc16 : Option Nat
  content : Bytes
  crc : Nat
  size : Nat

structure GzipSpec.Good (g : GzipSpec) : Prop where
  mtime : g.mtime < 2 ^ 32
  reserved0 : g.reserved0 < 8
  reserved1 : g.reserved1 < 2
  reserved2 : g.reserved2 < 32
  extra : ∀ x ∈ g.extra, x ≠ [] ∧ x.length < 2 ^ 16
  name : ∀ x ∈ g.name, 0 ∉ x
  comment : ∀ x ∈ g.comment, 0 ∉ x
  crc16 : ∀ x ∈ g.crc16, x < 2 ^ 16
  content : g.content ≠ []
  crc : g.crc < 2 ^ 32
  size : g.size < 2 ^ 32

def bit01 (b : Bool) : Nat := if b then 1 else 0

def GzipSpec.flags (g : GzipSpec) : Nat :=
  bit01 g.text + 2 * bit01 g.crc16.isSome + 4 * bit01 g.extra.isSome + 8 * bit01 g.name.isSome + 16 * bit01 g.comment.isSome + 32 * g.reserved0

def GzipSpec.xflags (g : GzipSpec) : Nat := g.reserved1 + 2 * bit01 g.slow + 4 * bit01 g.fast + 8 * g.reserved2

def GzipSpec.head (g : GzipSpec) : List Bytes :=
  [[0x1f, 0x8b], [g.method], [UInt8.ofNat g.flags], leBytes 4 g.mtime, [UInt8.ofNat g.xflags], [g.os]]

def optionBytes {α : Type} (o : Option α) (f : α → Bytes) : Bytes := (o.map f).getD []

def GzipSpec.options (g : GzipSpec) : List Bytes :=
  [optionBytes g.extra fun x => leBytes 2 x.length ++ x, optionBytes g.name (· ++ [0]), optionBytes g.comment (· ++ [0]),
    optionBytes g.crc16 (leBytes 2)]

def GzipSpec.header (g : GzipSpec) : Bytes := g.head.flatten ++ g.options.flatten

def GzipSpec.bytes (g : GzipSpec) : Bytes := g.header ++ (g.content ++ (leBytes 4 g.crc ++ leBytes 4 g.size))

def GzipSpec.shown (g : GzipSpec) : Header :=
  ⟨g.method.toNat, g.text, g.crc16.isSome, g.extra.isSome, g.name.isSome, g.comment.isSome, g.reserved0, g.mtime, g.reserved1, g.slow, g.fast,
    g.reserved2, g.os.toNat, g.extra.map fun x => (8 * 12, 8 * x.length), g.name, g.comment, g.crc16, 8 * g.header.length⟩

/-! ## Reading -/

theorem takeWhile_until (t rest : Bytes) (z : UInt8) (h : z ∉ t) : (t ++ z :: rest).takeWhile (· ≠ z) = t := by
  induction t with
  | nil => simp
  | cons x t ih =>
    simp only [List.mem_cons, not_or] at h
    rw [List.cons_append, List.takeWhile_cons, if_pos (by simpa using fun e => h.1 e.symm), ih h.2]

theorem read_cstring (data : Bytes) (s : InputStream) (hs : stringInputStream data = .ok s) (k : Nat) (t : Bytes) (h0 : 0 ∉ t)
    (hp : t ++ [0] <+: data.drop k) : readCString s (8 * k) = .ok (t, 8 * (k + (t ++ [0]).length)) := by
  obtain ⟨rest, hr⟩ := hp
  have hk : k ≤ data.length := by
    rcases Nat.lt_or_ge data.length k with h | h
    · rw [List.drop_eq_nil_of_le (by omega)] at hr
      simp at hr
    · exact h
  have ht : (data.drop k).takeWhile (· ≠ 0) = t := by
    rw [← hr, List.append_assoc]
    exact takeWhile_until t rest 0 h0
  have hl : t.length < (data.drop k).length := by
    rw [← hr]
    simp
  have h := C42_byte hs .little (by simp) k hk .c 0 rfl .eightBit (Or.inl rfl)
  simp only [ht] at h
  rw [if_pos hl] at h
  unfold readCString
  rw [h.1]
  simp only
  rw [h.2]
  simp only
  exact congrArg (fun n => Except.ok (t, n)) (by simp only [List.length_append, List.length_singleton]; omega)

theorem read_crc16 (data : Bytes) (s : InputStream) (hs : stringInputStream data = .ok s) (k x : Nat) (hx : x < 2 ^ 16)
    (hp : leBytes 2 x <+: data.drop k) : readCrc16 s (8 * k) = .ok (x, 8 * (k + (leBytes 2 x).length)) := by
  unfold readCrc16
  rw [read_num data s hs k 0 2 x (by omega) hx hp, leBytes_length]
  rfl

theorem read_optional {α β : Type} (o : Option α) (k : Nat) (f : α → Bytes) (g : α → β) (read : Except PyErr (β × Nat))
    (h : ∀ x, o = some x → read = .ok (g x, 8 * (k + (f x).length))) :
    Gzip.optional o.isSome (8 * k) read = .ok (o.map g, 8 * (k + (optionBytes o f).length)) := by
  cases o with
  | none => rfl
  | some x =>
    rw [h x rfl]
    rfl

theorem read_bit (data : Bytes) (s : InputStream) (hs : stringInputStream data = .ok s) (k i : Nat) (v : Nat) (hv : v < 256) (hi : i < 8)
    (hp : [UInt8.ofNat v] <+: data.drop k) (b : Bool) (hb : v / 2 ^ i % 2 = bit01 b) (j : Nat) (hj : j = 8 * k + i) :
    flag s 0 j = .ok b := by
  unfold flag
  rw [readBits_in data s hs k i 1 _ hp (by simp; omega) (by simp) _ (by rw [hj]; push_cast; ring)]
  simp only [ofBytesLE, UInt8.toNat_ofNat', Nat.mul_zero, Nat.add_zero, Nat.pow_one]
  rw [show v % 2 ^ 8 = v from Nat.mod_eq_of_lt hv, hb]
  cases b <;> rfl

theorem read_few (data : Bytes) (s : InputStream) (hs : stringInputStream data = .ok s) (k i n : Nat) (v : Nat) (hv : v < 256) (hi : i + n ≤ 8)
    (hp : [UInt8.ofNat v] <+: data.drop k) (w : Nat) (hw : v / 2 ^ i % 2 ^ n = w) (j : Int) (hj : j = ((8 * k + i : Nat) : Int)) :
    readBits s j n .little = .ok w := by
  rw [readBits_in data s hs k i n _ hp (by simp; omega) (by simp) _ hj]
  simp only [ofBytesLE, UInt8.toNat_ofNat', Nat.mul_zero, Nat.add_zero]
  rw [show v % 2 ^ 8 = v from Nat.mod_eq_of_lt hv, hw]

theorem gzip_head_length (g : GzipSpec) : g.head.flatten.length = 10 := by
  unfold GzipSpec.head
  simp [leBytes_length]

theorem gzip_fixed (data : Bytes) (s : InputStream) (hs : stringInputStream data = .ok s) (g : GzipSpec) (hm : g.mtime < 2 ^ 32)
    (h0 : g.reserved0 < 8) (h1 : g.reserved1 < 2) (h2 : g.reserved2 < 32) (hh : g.head.flatten <+: data.drop 0) :
    number s 0 2 1 = .ok g.method.toNat ∧ flag s 0 24 = .ok g.text ∧ flag s 0 25 = .ok g.crc16.isSome ∧ flag s 0 26 = .ok g.extra.isSome ∧
    flag s 0 27 = .ok g.name.isSome ∧ flag s 0 28 = .ok g.comment.isSome ∧ readBits s 29 3 .little = .ok g.reserved0 ∧
    number s 0 4 4 = .ok g.mtime ∧ readBits s 64 1 .little = .ok g.reserved1 ∧ flag s 0 65 = .ok g.slow ∧ flag s 0 66 = .ok g.fast ∧
    readBits s 67 5 .little = .ok g.reserved2 ∧ number s 0 9 1 = .ok g.os.toNat := by
  unfold GzipSpec.head at hh
  have hfl : g.flags < 256 := by
    have := h0
    unfold GzipSpec.flags bit01
    (repeat' split) <;> omega
  have hxl : g.xflags < 256 := by
    have := h1
    have := h2
    unfold GzipSpec.xflags bit01
    (repeat' split) <;> omega
  have r1 := read_num1 data s hs 0 2 g.method (record_part _ 1 _ rfl _ (by simp) hh)
  have pf := record_part _ 2 _ rfl 3 (by simp) hh
  have px := record_part _ 4 _ rfl 8 (by simp [leBytes_length]) hh
  have f0 := read_bit data s hs 3 0 g.flags hfl (by omega) pf g.text (by
    unfold GzipSpec.flags bit01; (repeat' split) <;> omega) 24 rfl
  have f1 := read_bit data s hs 3 1 g.flags hfl (by omega) pf g.crc16.isSome (by
    unfold GzipSpec.flags bit01; (repeat' split) <;> omega) 25 rfl
  have f2 := read_bit data s hs 3 2 g.flags hfl (by omega) pf g.extra.isSome (by
    unfold GzipSpec.flags bit01; (repeat' split) <;> omega) 26 rfl
  have f3 := read_bit data s hs 3 3 g.flags hfl (by omega) pf g.name.isSome (by
    unfold GzipSpec.flags bit01; (repeat' split) <;> omega) 27 rfl
  have f4 := read_bit data s hs 3 4 g.flags hfl (by omega) pf g.comment.isSome (by
    unfold GzipSpec.flags bit01; (repeat' split) <;> omega) 28 rfl
  have f5 := read_few data s hs 3 5 3 g.flags hfl (by omega) pf g.reserved0 (by
    have := h0
    unfold GzipSpec.flags bit01; (repeat' split) <;> omega) 29 rfl
  have r3 := read_num data s hs 0 4 4 g.mtime (by omega) hm (record_part _ 3 _ rfl _ (by simp) hh)
  have x0 := read_few data s hs 8 0 1 g.xflags hxl (by omega) px g.reserved1 (by
    have := h1
    unfold GzipSpec.xflags bit01; (repeat' split) <;> omega) 64 rfl
  have x1 := read_bit data s hs 8 1 g.xflags hxl (by omega) px g.slow (by
    have := h1
    unfold GzipSpec.xflags bit01; (repeat' split) <;> omega) 65 rfl
  have x2 := read_bit data s hs 8 2 g.xflags hxl (by omega) px g.fast (by
    have := h1
    unfold GzipSpec.xflags bit01; (repeat' split) <;> omega) 66 rfl
  have x3 := read_few data s hs 8 3 5 g.xflags hxl (by omega) px g.reserved2 (by
    have := h1
    have := h2
    unfold GzipSpec.xflags bit01; (repeat' split) <;> omega) 67 rfl
  have r5 := read_num1 data s hs 0 9 g.os (record_part _ 5 _ rfl _ (by simp [leBytes_length]) hh)
  rw [Nat.mul_zero] at r1 r3 r5
  exact ⟨r1, f0, f1, f2, f3, f4, f5, r3, x0, x1, x2, x3, r5⟩

/-- The header is read. -/
theorem C102_header (data : Bytes) (s : InputStream) (hs : stringInputStream data = .ok s) (g : GzipSpec) (h : g.Good)
    (hp : g.header <+: data) : readHeader s = .ok g.shown := by
  have hp0 : g.head.flatten ++ g.options.flatten <+: data.drop 0 := by simpa [GzipSpec.header] using hp
  have ho := drop_prefix hp0
  rw [gzip_head_length] at ho
  obtain ⟨r1, f0, f1, f2, f3, f4, f5, r3, x0, x1, x2, x3, r5⟩ :=
    gzip_fixed data s hs g h.mtime h.reserved0 h.reserved1 h.reserved2 (prefix_left hp0)
  -- the options
  unfold GzipSpec.options at ho
  simp only [List.flatten_cons, List.flatten_nil, List.append_nil, Nat.zero_add] at ho
  have p1 := drop_prefix ho
  have p2 := drop_prefix p1
  have p3 := drop_prefix p2
  have o1 := read_optional g.extra 10 (fun x => leBytes 2 x.length ++ x) (fun x => (8 * 12, 8 * x.length)) (readExtra s 80) (by
    intro x hx
    obtain ⟨h1, h2⟩ := h.extra x hx
    have hpx := prefix_left ho
    rw [hx] at hpx
    have hn := read_num data s hs 10 0 2 x.length (by omega) h2 (prefix_left (ys := x) hpx)
    unfold readExtra
    rw [show number s 80 0 2 = _ from hn]
    simp only
    rw [if_neg (by have := List.length_pos_of_ne_nil h1; omega)]
    have e : 8 * (10 + (leBytes 2 x.length ++ x).length) = 80 + 16 + 8 * x.length := by
      rw [List.length_append, leBytes_length]
      omega
    rw [e])
  have o2 := read_optional g.name _ (· ++ [0]) id (readCString s _) (by
    intro x hx
    have hpx := prefix_left p1
    rw [hx] at hpx
    exact read_cstring data s hs _ x (h.name x hx) hpx)
  have o3 := read_optional g.comment _ (· ++ [0]) id (readCString s _) (by
    intro x hx
    have hpx := prefix_left p2
    rw [hx] at hpx
    exact read_cstring data s hs _ x (h.comment x hx) hpx)
  have o4 := read_optional g.crc16 _ (leBytes 2) id (readCrc16 s _) (by
    intro x hx
    have hpx := p3
    rw [hx] at hpx
    exact read_crc16 data s hs _ x (h.crc16 x hx) hpx)
  unfold readHeader
  rw [r1, f0, f1, f2, f3, f4, f5, r3, x0, x1, x2, x3, r5]
  simp only [bind, Except.bind]
  rw [show (80 : Nat) = 8 * 10 from rfl] at o1 ⊢
  rw [o1]
  simp only
  rw [o2]
  simp only
  rw [o3]
  simp only
  rw [o4]
  simp only [pure, Except.pure, Option.map_id, id]
  have hlen : g.header.length = 10 + (optionBytes g.extra fun x => leBytes 2 x.length ++ x).length + (optionBytes g.name (· ++ [0])).length +
      (optionBytes g.comment (· ++ [0])).length + (optionBytes g.crc16 (leBytes 2)).length := by
    unfold GzipSpec.header
    rw [List.length_append, gzip_head_length]
    unfold GzipSpec.options
    simp only [List.flatten_cons, List.flatten_nil, List.append_nil, List.length_append]
    omega
  rw [← hlen]
  rfl

/-- An archive is read: header, content, check sum and size. -/
theorem C102_archive (s : InputStream) (g : GzipSpec) (h : g.Good) (hs : stringInputStream g.bytes = .ok s) :
    readHeader s = .ok g.shown ∧
    readBody s g.shown.stop (8 * g.bytes.length) = .ok ⟨some (8 * g.header.length, 8 * g.content.length), g.crc, g.size⟩ := by
  refine ⟨C102_header _ s hs g h (List.prefix_append ..), ?_⟩
  have hpos := List.length_pos_of_ne_nil h.content
  have hl : g.bytes.length = g.header.length + g.content.length + 8 := by
    unfold GzipSpec.bytes
    simp only [List.length_append, leBytes_length]
    omega
  have hp : g.header ++ (g.content ++ (leBytes 4 g.crc ++ leBytes 4 g.size)) <+: g.bytes.drop 0 := by
    simp [GzipSpec.bytes]
  have p1 := drop_prefix hp
  have p2 := drop_prefix p1
  have p3 := drop_prefix p2
  rw [Nat.zero_add] at p2 p3
  rw [leBytes_length] at p3
  have r1 := read_num _ s hs (g.header.length + g.content.length) 0 4 g.crc (by omega) h.crc (prefix_left p2)
  have r2 := read_num _ s hs _ 4 4 g.size (by omega) h.size p3
  unfold readBody
  have hn : ((8 * g.bytes.length : Nat) - (g.shown.stop : Int)) / 8 - 8 = (g.content.length : Int) := by
    show ((8 * g.bytes.length : Nat) - ((8 * g.header.length : Nat) : Int)) / 8 - 8 = (g.content.length : Int)
    omega
  rw [hn]
  simp only
  rw [if_pos (by omega), Int.toNat_natCast, show g.shown.stop + 8 * g.content.length = 8 * (g.header.length + g.content.length) by
    show 8 * g.header.length + 8 * g.content.length = _
    omega, r1, r2]
  simp only
  rw [if_pos (by omega)]
  rfl

/-- An archive is accepted exactly if the method is known and the reserved bits are zero. -/
theorem C102_valid (s : InputStream) (g : GzipSpec) (hs : stringInputStream g.bytes = .ok s) :
    valid s g.shown = .ok (decide (g.method = 8 ∧ g.reserved0 = 0 ∧ g.reserved1 = 0 ∧ g.reserved2 = 0)) := by
  have hp : [0x1f, 0x8b] <+: g.bytes.drop 0 := by
    unfold GzipSpec.bytes GzipSpec.header GzipSpec.head
    exact ⟨_, rfl⟩
  have hb : readBytes s 0 2 = .ok [0x1f, 0x8b] := readBytes_prefix _ s hs 0 _ hp
  unfold valid
  rw [hb]
  simp only
  congr 1
  rw [decide_eq_decide]
  have : g.shown.compression = 8 ↔ g.method = 8 := by
    show g.method.toNat = 8 ↔ _
    constructor
    · intro e; exact UInt8.toNat_inj.1 e
    · intro e; rw [e]; rfl
  rw [this]
  simp [GzipSpec.shown]

/-- The metadata tell the time, if there is one, name, comment and both sizes. -/
theorem C102_metadata (g : GzipSpec) (b : Body) (hb : b.file = some (8 * g.header.length, 8 * g.content.length)) :
    shown g.shown b = (if g.mtime = 0 then none else some g.mtime, g.name, g.comment, some g.content.length, some b.size) := by
  unfold shown
  rw [hb]
  simp only
  rw [Nat.mul_div_cancel_left _ (by omega)]
  by_cases h : g.mtime = 0 <;> simp [GzipSpec.shown, h]

/-- Violation: an empty extra field, which is allowed, makes the header unreadable. -/
theorem C102_empty_extra (s : InputStream) (g : GzipSpec) (hx : g.extra = some []) (hm : g.mtime < 2 ^ 32)
    (h0 : g.reserved0 < 8) (h1 : g.reserved1 < 2) (h2 : g.reserved2 < 32) (hs : stringInputStream g.bytes = .ok s) :
    readHeader s = .error .field := by
  have hp : g.head.flatten ++ (g.options.flatten ++ (g.content ++ (leBytes 4 g.crc ++ leBytes 4 g.size))) <+: g.bytes.drop 0 := by
    simp [GzipSpec.bytes, GzipSpec.header]
  have ho := drop_prefix hp
  rw [gzip_head_length] at ho
  obtain ⟨r1, f0, f1, f2, f3, f4, f5, r3, x0, x1, x2, x3, r5⟩ := gzip_fixed _ s hs g hm h0 h1 h2 (prefix_left hp)
  have hn := read_num _ s hs 10 0 2 0 (by omega) (by omega) (by
    refine List.IsPrefix.trans ?_ ho
    unfold GzipSpec.options optionBytes
    rw [hx]
    simp)
  unfold readHeader
  rw [r1, f0, f1, f2, f3, f4, f5, r3, x0, x1, x2, x3, r5, hx]
  simp only [bind, Except.bind]
  have : Gzip.optional true 80 (readExtra s 80) = (.error .field : Except PyErr (Option (Nat × Nat) × Nat)) := by
    unfold Gzip.optional readExtra
    rw [show number s 80 0 2 = _ from hn]
    rfl
  rw [show (some ([] : Bytes)).isSome = true from rfl, this]

/-! ## Examples -/

/-- The archive of the file `a` with the comment `b`. -/
def sampleGzip : GzipSpec := ⟨8, true, 5, true, false, 255, 0, 0, 0, some [1, 2], some [97], some [98], some 7, [3, 0], 9, 0⟩

theorem sampleGzip_good : sampleGzip.Good where
  mtime := by decide
  reserved0 := by decide
  reserved1 := by decide
  reserved2 := by decide
  extra := by decide
  name := by decide
  comment := by decide
  crc16 := by decide
  content := by decide
  crc := by decide
  size := by decide

example : sampleGzip.bytes = [0x1f, 0x8b, 8, 31, 5, 0, 0, 0, 2, 255, 2, 0, 1, 2, 97, 0, 98, 0, 7, 0, 3, 0, 9, 0, 0, 0, 0, 0, 0, 0] := by
  decide +kernel

example (s : InputStream) (hs : stringInputStream sampleGzip.bytes = .ok s) : readHeader s = .ok sampleGzip.shown ∧
    readBody s sampleGzip.shown.stop (8 * sampleGzip.bytes.length) = .ok ⟨some (8 * sampleGzip.header.length, 8 * 2), 9, 0⟩ :=
  C102_archive s sampleGzip sampleGzip_good hs

example : sampleGzip.shown = ⟨8, true, true, true, true, true, 0, 5, 0, true, false, 0, 255, some (96, 16), some [97], some [98], some 7, 160⟩ := by
  decide

example (s : InputStream) (hs : stringInputStream sampleGzip.bytes = .ok s) : valid s sampleGzip.shown = .ok true :=
  C102_valid s sampleGzip hs

example : shown sampleGzip.shown ⟨some (8 * 20, 8 * 2), 9, 0⟩ = (some 5, some [97], some [98], some 2, some 0) :=
  C102_metadata sampleGzip _ rfl

example (s : InputStream) (hs : stringInputStream (GzipSpec.bytes {sampleGzip with extra := some []}) = .ok s) :
    readHeader s = .error .field :=
  C102_empty_extra s {sampleGzip with extra := some []} rfl (by decide) (by decide) (by decide) (by decide) hs

end Hachoir.Props

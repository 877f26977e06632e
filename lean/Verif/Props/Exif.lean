import Verif.Formats.Exif
import Verif.Props.Asn1
import Verif.Props.Ntfs

/-!
# C85, C86: the directories of EXIF and TIFF files and their values
-/

set_option linter.unusedVariables false

namespace Hachoir.Props
open Hachoir Hachoir.Stream Spec Hachoir.Formats Hachoir.Formats.Exif

/-! ### What the bytes of a directory say (TIFF 6.0, section 2) -/

/-- The number that bytes stand for in a byte order. -/
def numberIn : Endian → Bytes → Option Nat
  | .little, bs => some (ofBytesLE bs)
  | .big, bs => some (ofBytesBE bs)
  | .middle, _ => none

/-- One number of the type of an entry. -/
inductive ItemBytes (e : Endian) : Nat → Item → Bytes → Prop where
  | unsigned (type n v : Nat) (bs : Bytes) (ht : (type, n) ∈ [(1, 1), (3, 2), (4, 4)]) (hl : bs.length = n)
      (hv : numberIn e bs = some v) : ItemBytes e type (.int v) bs
  | signed (type n v : Nat) (bs : Bytes) (ht : (type, n) ∈ [(6, 1), (8, 2), (9, 4)]) (hl : bs.length = n)
      (hv : numberIn e bs = some v) : ItemBytes e type (.int (twosComplement (8 * n) v)) bs
  | rational (num den : Nat) (a b : Bytes) (ha : a.length = 4) (hb : b.length = 4) (hna : numberIn e a = some num)
      (hnb : numberIn e b = some den) : ItemBytes e 5 (.ratio num den) (a ++ b)
  | srational (num den : Nat) (a b : Bytes) (ha : a.length = 4) (hb : b.length = 4) (hna : numberIn e a = some num)
      (hnb : numberIn e b = some den) :
      ItemBytes e 10 (.ratio (twosComplement 32 num) (twosComplement 32 den)) (a ++ b)
  | float (type n : Nat) (bs : Bytes) (ht : (type, n) ∈ [(11, 4), (12, 8)]) (hl : bs.length = n) :
      ItemBytes e type (.float bs) bs

/-- The value of an entry with its count. -/
inductive ValueBytes (e : Endian) (type : Nat) : Nat → Value → Bytes → Prop where
  | bytes (bs : Bytes) (ht : type = 2 ∨ type = 7) : ValueBytes e type bs.length (.bytes bs) bs
  | items (l : List (Item × Bytes)) (h : ∀ p ∈ l, ItemBytes e type p.1 p.2) :
      ValueBytes e type l.length (.items (l.map (·.1))) (l.flatMap (·.2))

/-- An entry: its tag, its type, its value, and the offset of a value that is not in the entry. -/
structure Told where
  tag : Nat
  type : Nat
  value : Value
  far : Option Nat
deriving DecidableEq

/-- The twelve bytes of an entry; a value of more than four bytes lies at the offset told. -/
inductive EntryBytes (data : Bytes) (e : Endian) (base : Nat) : Told → Bytes → Prop where
  | inside (tag type count : Nat) (v : Value) (t y c x pad : Bytes) (ht : t.length = 2) (hy : y.length = 2)
      (hc : c.length = 4) (hnt : numberIn e t = some tag) (hny : numberIn e y = some type)
      (hnc : numberIn e c = some count) (h0 : 0 < count) (hv : ValueBytes e type count v x)
      (hl : x.length + pad.length = 4) : EntryBytes data e base ⟨tag, type, v, none⟩ (t ++ (y ++ (c ++ (x ++ pad))))
  | outside (tag type count off : Nat) (v : Value) (t y c o x : Bytes) (ht : t.length = 2) (hy : y.length = 2)
      (hc : c.length = 4) (ho : o.length = 4) (hnt : numberIn e t = some tag) (hny : numberIn e y = some type)
      (hnc : numberIn e c = some count) (hno : numberIn e o = some off) (hv : ValueBytes e type count v x)
      (hl : 4 < x.length) (hx : x <+: data.drop (base + off)) :
      EntryBytes data e base ⟨tag, type, v, some off⟩ (t ++ (y ++ (c ++ o)))

/-- A directory at the byte `k`: the number of its entries, the entries, the offset of the next. -/
inductive DirBytes (data : Bytes) (e : Endian) (base k : Nat) : List Told → Nat → Prop where
  | mk (l : List (Told × Bytes)) (next : Nat) (c n : Bytes) (hc : c.length = 2) (hnc : numberIn e c = some l.length)
      (h0 : l ≠ []) (he : ∀ p ∈ l, EntryBytes data e base p.1 p.2) (hn : n.length = 4) (hnn : numberIn e n = some next)
      (hp : (c ++ (l.flatMap (·.2) ++ n)) <+: data.drop k) : DirBytes data e base k (l.map (·.1)) next

/-- What the parser should tell about an entry. -/
def Told.whole (t : Told) : Nat × Nat × Option Value := (t.tag, t.type, some t.value)

/-- An entry without its value unless the value is in the entry. -/
def Told.near (t : Told) : Nat × Nat × Option Value := (t.tag, t.type, if t.far = none then some t.value else none)

/-- A value that is not in its entry lies behind the beginning of the directory (at the byte `k`),
and is no XMP packet of a type other than bytes. -/
def Behind (kind : DirKind) (base k : Nat) (t : Told) : Prop :=
  ∀ off, t.far = some off → k ≤ base + off ∧ (kind = .ifd → t.tag = 0x02bc → t.type = 2 ∨ t.type = 7)

/-! ### Reading numbers -/

theorem read_number (data : Bytes) (s : InputStream) (hs : stringInputStream data = .ok s) (e : Endian) (k v : Nat)
    (bs : Bytes) (h1 : bs ≠ []) (hv : numberIn e bs = some v) (hp : bs <+: data.drop k) (n : Nat) (hn : n = 8 * bs.length)
    (ad : Int) (had : ad = (8 * k : Nat)) : readBits s ad n e = .ok v := by
  have hpos := List.length_pos_iff.2 h1
  obtain ⟨ht, hl⟩ := take_of_prefix hp
  subst hn had
  cases e with
  | little =>
    rw [Nat.mul_comm 8 (List.length bs), readBits_bytes_little data s hs k _ hpos, if_pos hl, ht]
    simpa [numberIn] using hv
  | big =>
    rw [readBits_bytes_big data s hs k _ hpos, if_pos hl, ht]
    simpa [numberIn] using hv
  | middle => cases hv

theorem read_unsigned (data : Bytes) (s : InputStream) (hs : stringInputStream data = .ok s) (e : Endian) (k v : Nat)
    (bs : Bytes) (h1 : bs ≠ []) (hv : numberIn e bs = some v) (hp : bs <+: data.drop k) (n : Nat) (hn : n = 8 * bs.length)
    (ad : Int) (had : ad = (8 * k : Nat)) : readInteger s ad false n e = .ok (v : Int) := by
  rw [_root_.Props.C02_readInteger_unsigned, read_number data s hs e k v bs h1 hv hp n hn ad had]
  rfl

theorem read_signed (data : Bytes) (s : InputStream) (hs : stringInputStream data = .ok s) (e : Endian) (k v : Nat)
    (bs : Bytes) (h1 : bs ≠ []) (hv : numberIn e bs = some v) (hp : bs <+: data.drop k) (n : Nat) (hn : n = 8 * bs.length)
    (ad : Int) (had : ad = (8 * k : Nat)) : readInteger s ad true n e = .ok (twosComplement n v) := by
  have hpos := List.length_pos_iff.2 h1
  unfold readInteger
  rw [read_number data s hs e k v bs h1 hv hp n hn ad had]
  simp only [if_true]
  rw [if_neg (by omega)]
  unfold twosComplement
  rw [Nat.shiftLeft_eq, Nat.shiftLeft_eq, Nat.one_mul, Nat.one_mul]
  by_cases h : 2 ^ (n - 1) ≤ v
  · rw [if_pos h, if_neg (by omega), Nat.cast_pow]; rfl
  · rw [if_neg h, if_pos (by omega)]

theorem ne_nil_of_length {bs : Bytes} {n : Nat} (h : bs.length = n) (hn : 0 < n) : bs ≠ [] := by
  rintro rfl; simp at h; omega

/-! ### Values -/

theorem readItem_bytes (data : Bytes) (s : InputStream) (hs : stringInputStream data = .ok s) (e : Endian) (k type : Nat)
    (v : Item) (bs : Bytes) (h : ItemBytes e type v bs) (hp : bs <+: data.drop k) (ad : Int) (had : ad = (8 * k : Nat)) :
    readItem s e (kindOf type) ad = .ok v ∧ (kindOf type).size = 8 * bs.length ∧ kindOf type ≠ .bytes ∧ 0 < bs.length := by
  cases h with
  | unsigned type n v bs ht hl hv =>
    simp only [List.mem_cons, Prod.mk.injEq, List.not_mem_nil, or_false] at ht
    rcases ht with ⟨rfl, rfl⟩ | ⟨rfl, rfl⟩ | ⟨rfl, rfl⟩ <;>
    · refine ⟨?_, by rw [hl]; rfl, by simp [kindOf], by omega⟩
      simp only [kindOf, readItem]
      rw [read_unsigned data s hs e k v bs (ne_nil_of_length hl (by omega)) hv hp _ (by rw [hl]) ad had]
  | signed type n v bs ht hl hv =>
    simp only [List.mem_cons, Prod.mk.injEq, List.not_mem_nil, or_false] at ht
    rcases ht with ⟨rfl, rfl⟩ | ⟨rfl, rfl⟩ | ⟨rfl, rfl⟩ <;>
    · refine ⟨?_, by rw [hl]; rfl, by simp [kindOf], by omega⟩
      simp only [kindOf, readItem]
      rw [read_signed data s hs e k v bs (ne_nil_of_length hl (by omega)) hv hp _ (by rw [hl]) ad had]
  | rational num den a b ha hb hna hnb =>
    have hpb := drop_prefix hp
    rw [ha] at hpb
    refine ⟨?_, by rw [List.length_append, ha, hb]; rfl, by simp [kindOf], by rw [List.length_append]; omega⟩
    simp only [kindOf, readItem]
    rw [read_unsigned data s hs e k num a (ne_nil_of_length ha (by omega)) hna (prefix_left hp) _ (by rw [ha]) ad had]
    simp only
    rw [read_unsigned data s hs e (k + 4) den b (ne_nil_of_length hb (by omega)) hnb hpb _ (by rw [hb]) (ad + 32) (by omega)]
  | srational num den a b ha hb hna hnb =>
    have hpb := drop_prefix hp
    rw [ha] at hpb
    refine ⟨?_, by rw [List.length_append, ha, hb]; rfl, by simp [kindOf], by rw [List.length_append]; omega⟩
    simp only [kindOf, readItem]
    rw [read_signed data s hs e k num a (ne_nil_of_length ha (by omega)) hna (prefix_left hp) _ (by rw [ha]) ad had]
    simp only
    rw [read_signed data s hs e (k + 4) den b (ne_nil_of_length hb (by omega)) hnb hpb _ (by rw [hb]) (ad + 32) (by omega)]
  | float type n bs ht hl =>
    simp only [List.mem_cons, Prod.mk.injEq, List.not_mem_nil, or_false] at ht
    have := readBytes_prefix data s hs k bs hp
    rcases ht with ⟨rfl, rfl⟩ | ⟨rfl, rfl⟩ <;>
    · refine ⟨?_, by rw [hl]; rfl, by simp [kindOf], by omega⟩
      simp only [kindOf, readItem]
      rw [hl] at this
      rw [had, this]

theorem readItems_bytes (data : Bytes) (s : InputStream) (hs : stringInputStream data = .ok s) (e : Endian) (type : Nat)
    (l : List (Item × Bytes)) (h : ∀ p ∈ l, ItemBytes e type p.1 p.2) (k : Nat) (hp : l.flatMap (·.2) <+: data.drop k)
    (ad : Int) (had : ad = (8 * k : Nat)) :
    readItems s e (kindOf type) l.length ad = .ok (l.map (·.1)) ∧
    (kindOf type).size * l.length = 8 * (l.flatMap (·.2)).length := by
  induction l generalizing k ad with
  | nil => exact ⟨rfl, by simp⟩
  | cons p l ih =>
    rw [List.flatMap_cons] at hp
    obtain ⟨h1, h2, _, _⟩ := readItem_bytes data s hs e k type p.1 p.2 (h p (by simp)) (prefix_left hp) ad had
    obtain ⟨h3, h4⟩ := ih (fun q hq => h q (by simp [hq])) (k + p.2.length) (drop_prefix hp) (ad + (kindOf type).size)
      (by omega)
    constructor
    · simp only [List.length_cons, readItems, h1, h3, List.map_cons]
    · rw [List.length_cons, Nat.mul_add, h4, h2, List.flatMap_cons, List.length_append]; omega

theorem readValue_bytes (data : Bytes) (s : InputStream) (hs : stringInputStream data = .ok s) (e : Endian) (type count : Nat)
    (v : Value) (bs : Bytes) (h : ValueBytes e type count v bs) (h0 : 0 < count) (xmp : Bool)
    (hx : xmp = true → type = 2 ∨ type = 7) (k : Nat) (hp : bs <+: data.drop k) (ad : Int) (had : ad = (8 * k : Nat)) :
    readValue s e (kindOf type) count xmp ad = .ok v ∧ (kindOf type).size * count = 8 * bs.length := by
  have hk : type = 2 ∨ type = 7 → kindOf type = .bytes := by rintro (rfl | rfl) <;> rfl
  cases h with
  | bytes bs ht =>
    unfold readValue
    rw [if_pos (.inl (hk ht)), had, readBytes_prefix data s hs k bs hp, hk ht]
    exact ⟨rfl, rfl⟩
  | items l h =>
    obtain ⟨h1, h2⟩ := readItems_bytes data s hs e type l h k hp ad had
    refine ⟨?_, h2⟩
    match l, h0, h with
    | p :: l, _, h =>
      rw [List.flatMap_cons] at hp
      obtain ⟨h3, h4, h5, h6⟩ := readItem_bytes data s hs e k type p.1 p.2 (h p (by simp)) (prefix_left hp) ad had
      have hxf : ¬ (kindOf type = .bytes ∨ xmp = true) := by
        rintro (h | h)
        · exact h5 h
        · exact h5 (hk (hx h))
      unfold readValue
      rw [if_neg hxf]
      cases l with
      | nil => simp [h3]
      | cons q l => rw [if_neg (by simp), h1]

/-! ### Entries -/

/-- The place the parser finds for an entry. -/
def Told.place (t : Told) : Place :=
  match t.far with
  | none => .inside t.value
  | some off => .offset off

theorem readEntry_bytes (data : Bytes) (s : InputStream) (hs : stringInputStream data = .ok s) (e : Endian) (base : Nat)
    (t : Told) (bs : Bytes) (h : EntryBytes data e base t bs) (k : Nat) (hp : bs <+: data.drop k) (ad : Int)
    (had : ad = (8 * k : Nat)) :
    bs.length = 12 ∧ ∃ entry, readEntry s e ad = .ok entry ∧ entry.tag = t.tag ∧ entry.type = t.type ∧
      entry.place = t.place ∧ (∀ off, t.far = some off → ∃ x, ValueBytes e t.type entry.count t.value x ∧
        0 < entry.count ∧ x <+: data.drop (base + off)) := by
  cases h with
  | inside tag type count v t y c x pad ht hy hc hnt hny hnc h0 hv hl =>
    have p1 := drop_prefix hp
    have p2 := drop_prefix p1
    have p3 := drop_prefix p2
    rw [ht] at p1 p2 p3
    rw [hy] at p2 p3
    rw [hc] at p3
    obtain ⟨hrv, hsize⟩ := readValue_bytes data s hs e type count v x hv h0 false (by simp) (k + 2 + 2 + 4) (prefix_left p3)
      (ad + 64) (by omega)
    refine ⟨by simp only [List.length_append]; omega, ⟨tag, type, count, .inside v⟩, ?_, rfl, rfl, rfl, by simp⟩
    unfold readEntry
    rw [read_number data s hs e k tag t (ne_nil_of_length ht (by omega)) hnt (prefix_left hp) 16 (by rw [ht]) ad had]
    simp only
    rw [read_number data s hs e (k + 2) type y (ne_nil_of_length hy (by omega)) hny (prefix_left p1) 16 (by rw [hy])
      (ad + 16) (by omega)]
    simp only
    rw [read_number data s hs e (k + 2 + 2) count c (ne_nil_of_length hc (by omega)) hnc (prefix_left p2) 32 (by rw [hc])
      (ad + 32) (by omega)]
    simp only
    rw [if_neg (by omega), if_pos (by omega), hrv]
  | outside tag type count off v t y c o x ht hy hc ho hnt hny hnc hno hv hl hx =>
    have p1 := drop_prefix hp
    have p2 := drop_prefix p1
    have p3 := drop_prefix p2
    rw [ht] at p1 p2 p3
    rw [hy] at p2 p3
    rw [hc] at p3
    have h0 : 0 < count := by
      cases hv with
      | bytes bs _ => omega
      | items l _ =>
        cases l with
        | nil => simp at hl
        | cons p l => simp
    obtain ⟨_, hsize⟩ := readValue_bytes data s hs e type count v x hv h0 false (by simp) (base + off) hx _ rfl
    refine ⟨by simp only [List.length_append]; omega, ⟨tag, type, count, .offset off⟩, ?_, rfl, rfl, rfl, ?_⟩
    · unfold readEntry
      rw [read_number data s hs e k tag t (ne_nil_of_length ht (by omega)) hnt (prefix_left hp) 16 (by rw [ht]) ad had]
      simp only
      rw [read_number data s hs e (k + 2) type y (ne_nil_of_length hy (by omega)) hny (prefix_left p1) 16 (by rw [hy])
        (ad + 16) (by omega)]
      simp only
      rw [read_number data s hs e (k + 2 + 2) count c (ne_nil_of_length hc (by omega)) hnc (prefix_left p2) 32 (by rw [hc])
        (ad + 32) (by omega)]
      simp only
      rw [if_neg (by omega), if_neg (by omega), read_number data s hs e (k + 2 + 2 + 4) off o
        (ne_nil_of_length ho (by omega)) hno p3 32 (by rw [ho]) (ad + 64) (by omega)]
    · intro off' h
      cases h
      exact ⟨x, hv, h0, hx⟩

/-- What the parser has of an entry, with the bytes of a value elsewhere. -/
def EntryFits (data : Bytes) (e : Endian) (base : Nat) (t : Told) (entry : Entry) : Prop :=
  entry.tag = t.tag ∧ entry.type = t.type ∧ entry.place = t.place ∧
    (∀ off, t.far = some off → ∃ x, ValueBytes e t.type entry.count t.value x ∧ 0 < entry.count ∧ x <+: data.drop (base + off))

inductive AllFit (data : Bytes) (e : Endian) (base : Nat) : List Told → List Entry → Prop where
  | nil : AllFit data e base [] []
  | cons (t : Told) (entry : Entry) (ts : List Told) (es : List Entry) (h : EntryFits data e base t entry)
      (hs : AllFit data e base ts es) : AllFit data e base (t :: ts) (entry :: es)

theorem readEntries_bytes (data : Bytes) (s : InputStream) (hs : stringInputStream data = .ok s) (e : Endian) (base : Nat)
    (l : List (Told × Bytes)) (h : ∀ p ∈ l, EntryBytes data e base p.1 p.2) (k : Nat)
    (hp : l.flatMap (·.2) <+: data.drop k) (ad : Int) (had : ad = (8 * k : Nat)) :
    (l.flatMap (·.2)).length = 12 * l.length ∧
    ∃ es, readEntries s e l.length ad = .ok es ∧ AllFit data e base (l.map (·.1)) es := by
  induction l generalizing k ad with
  | nil => exact ⟨rfl, [], rfl, .nil⟩
  | cons p l ih =>
    rw [List.flatMap_cons] at hp
    obtain ⟨h1, entry, h2, h3⟩ := readEntry_bytes data s hs e base p.1 p.2 (h p (by simp)) k (prefix_left hp) ad had
    have hd := drop_prefix hp
    rw [h1] at hd
    obtain ⟨h4, es, h5, h6⟩ := ih (fun q hq => h q (by simp [hq])) (k + 12) hd (ad + 96) (by omega)
    refine ⟨?_, entry :: es, ?_, .cons _ _ _ _ h3 h6⟩
    · rw [List.flatMap_cons, List.length_append, h1, h4, List.length_cons]; omega
    · simp only [List.length_cons, readEntries, h2, h5]

theorem farValue_good (data : Bytes) (s : InputStream) (hs : stringInputStream data = .ok s) (e : Endian) (kind : DirKind)
    (base k : Nat) (t : Told) (entry : Entry) (hf : EntryFits data e base t entry) (hb : Behind kind base k t) (off : Nat)
    (ho : t.far = some off) :
    farValue s e kind.xmpTag (8 * k : Nat) (8 * base : Nat) entry off = .ok t.value := by
  obtain ⟨h1, h2, h3, h4⟩ := hf
  obtain ⟨x, hv, h0, hx⟩ := h4 off ho
  obtain ⟨hk, hxmp⟩ := hb off ho
  have hdiv : ((8 * base : Nat) : Int) / 8 = base := by omega
  unfold farValue
  simp only [hdiv]
  rw [if_neg (by omega), h2]
  refine (readValue_bytes data s hs e t.type entry.count t.value x hv h0 _ ?_ (base + off) hx _ (by omega)).1
  intro h
  simp only [decide_eq_true_eq, h1] at h
  cases kind <;> simp only [DirKind.xmpTag, Option.some.injEq, reduceCtorEq] at h
  exact hxmp rfl h

theorem entryValues_good (data : Bytes) (s : InputStream) (hs : stringInputStream data = .ok s) (e : Endian) (kind : DirKind)
    (base k : Nat) (ts : List Told) (es : List Entry) (hf : AllFit data e base ts es) (hb : ∀ t ∈ ts, Behind kind base k t)
    (rest : List Entry) :
    entryValues s e kind.xmpTag (8 * k : Nat) (8 * base : Nat) true (es ++ rest) =
      ts.map Told.whole ++ entryValues s e kind.xmpTag (8 * k : Nat) (8 * base : Nat) true rest := by
  induction hf with
  | nil => rfl
  | cons t entry ts es h hs' ih =>
    have ih := ih (fun t ht => hb t (by simp [ht]))
    have hfar := farValue_good data s hs e kind base k t entry h (hb t (by simp))
    obtain ⟨h1, h2, h3, h4⟩ := h
    simp only [List.cons_append, List.map_cons, entryValues]
    rw [h3]
    unfold Told.place
    cases hfr : t.far with
    | none => simp only [ih, h1, h2]; rfl
    | some off =>
      simp only [hfar off hfr, ih, h1, h2]; rfl

theorem entryValues_dead (data : Bytes) (s : InputStream) (e : Endian) (xmp : Option Nat) (a b : Int) (base : Nat)
    (ts : List Told) (es : List Entry) (hf : AllFit data e base ts es) :
    entryValues s e xmp a b false es = ts.map Told.near := by
  induction hf with
  | nil => rfl
  | cons t entry ts es h hs' ih =>
    obtain ⟨h1, h2, h3, h4⟩ := h
    simp only [List.map_cons, entryValues]
    rw [h3]
    unfold Told.place
    cases hfr : t.far with
    | none => simp only [ih, h1, h2]; simp [Told.near, hfr]
    | some off => simp only [ih, h1, h2]; simp [Told.near, hfr]

theorem allFit_append (data : Bytes) (e : Endian) (base : Nat) (ts us : List Told) (es : List Entry)
    (h : AllFit data e base (ts ++ us) es) :
    ∃ fs gs, es = fs ++ gs ∧ AllFit data e base ts fs ∧ AllFit data e base us gs := by
  induction ts generalizing es with
  | nil => exact ⟨[], es, rfl, .nil, h⟩
  | cons t ts ih =>
    cases h with
    | cons _ entry _ es h hs =>
      obtain ⟨fs, gs, rfl, h1, h2⟩ := ih es hs
      exact ⟨entry :: fs, gs, rfl, .cons _ _ _ _ h h1, h2⟩

theorem readDir_bytes (data : Bytes) (s : InputStream) (hs : stringInputStream data = .ok s) (e : Endian) (kind : DirKind)
    (base k : Nat) (ts : List Told) (next : Nat) (h : DirBytes data e base k ts next) :
    ∃ es, AllFit data e base ts es ∧ readDir s e kind (8 * k : Nat) (8 * base : Nat) =
      .ok ⟨entryValues s e kind.xmpTag (8 * k : Nat) (8 * base : Nat) true es, next⟩ := by
  cases h with
  | mk l next c n hc hnc h0 he hn hnn hp =>
    have p1 := drop_prefix hp
    rw [hc] at p1
    obtain ⟨hlen, es, h1, h2⟩ := readEntries_bytes data s hs e base l he (k + 2) (prefix_left p1) (((8 * k : Nat) : Int) + 16)
      (by omega)
    have p2 := drop_prefix p1
    rw [hlen] at p2
    refine ⟨es, h2, ?_⟩
    unfold readDir
    rw [read_number data s hs e k l.length c (ne_nil_of_length hc (by omega)) hnc (prefix_left hp) 16 (by rw [hc]) _ rfl]
    simp only
    have hpos := List.length_pos_iff.2 h0
    rw [if_neg (by omega), h1]
    simp only
    rw [read_number data s hs e (k + 2 + 12 * l.length) next n (ne_nil_of_length hn (by omega)) hnn p2 32 (by rw [hn]) _
      (by omega)]

/-- C85: the entries of a directory are read with their values, whether in the entries or behind
the beginning of the directory, in both byte orders, and the offset of the next directory.
Missing: values before the directory (`C85_before`) and XMP packets whose type is not bytes. -/
theorem C85_values_partial (data : Bytes) (s : InputStream) (hs : stringInputStream data = .ok s) (e : Endian) (kind : DirKind)
    (base k : Nat) (ts : List Told) (next : Nat) (h : DirBytes data e base k ts next)
    (hb : ∀ t ∈ ts, Behind kind base k t) :
    readDir s e kind (8 * k : Nat) (8 * base : Nat) = .ok ⟨ts.map Told.whole, next⟩ := by
  obtain ⟨es, h1, h2⟩ := readDir_bytes data s hs e kind base k ts next h
  rw [h2]
  have := entryValues_good data s hs e kind base k ts es h1 hb []
  simp only [List.append_nil] at this
  rw [this]
  simp [entryValues]

/-- C85 (disagreement): a value that lies before its directory is not read, and with it all later
values outside of the entries are lost. -/
theorem C85_before (data : Bytes) (s : InputStream) (hs : stringInputStream data = .ok s) (e : Endian) (kind : DirKind)
    (base k : Nat) (ts us : List Told) (t : Told) (next : Nat) (h : DirBytes data e base k (ts ++ t :: us) next)
    (hb : ∀ t ∈ ts, Behind kind base k t) (off : Nat) (ho : t.far = some off) (hoff : base + off < k) :
    readDir s e kind (8 * k : Nat) (8 * base : Nat) =
      .ok ⟨ts.map Told.whole ++ (t.tag, t.type, none) :: us.map Told.near, next⟩ := by
  obtain ⟨es, h1, h2⟩ := readDir_bytes data s hs e kind base k _ next h
  obtain ⟨fs, gs, rfl, h3, h4⟩ := allFit_append data e base ts _ es h1
  rw [h2, entryValues_good data s hs e kind base k ts fs h3 hb]
  cases h4 with
  | cons _ entry _ gs hf hg =>
    obtain ⟨f1, f2, f3, f4⟩ := hf
    have hdiv : ((8 * base : Nat) : Int) / 8 = base := by omega
    have hfar : farValue s e kind.xmpTag (8 * k : Nat) (8 * base : Nat) entry off = .error .parser := by
      unfold farValue
      simp only [hdiv]
      rw [if_pos (by omega)]
    simp only [entryValues]
    rw [f3]
    unfold Told.place
    simp only [ho, hfar, f1, f2, entryValues_dead data s e _ _ _ base us gs hg]

/-- A directory in little endian with the offset counted from byte 0: a number in its entry, two
numbers in their entry, a rational number and a text behind the directory. -/
def sampleDir : Bytes :=
  [4, 0,
   0, 1, 3, 0, 1, 0, 0, 0, 64, 1, 0, 0,
   2, 1, 8, 0, 2, 0, 0, 0, 255, 255, 8, 0,
   26, 1, 5, 0, 1, 0, 0, 0, 54, 0, 0, 0,
   15, 1, 2, 0, 6, 0, 0, 0, 62, 0, 0, 0,
   0, 0, 0, 0,
   72, 0, 0, 0, 1, 0, 0, 0,
   72, 101, 108, 108, 111, 0]

def sampleTold : List Told :=
  [⟨256, 3, .items [.int 320], none⟩, ⟨258, 8, .items [.int (-1), .int 8], none⟩,
   ⟨282, 5, .items [.ratio 72 1], some 54⟩, ⟨271, 2, .bytes [72, 101, 108, 108, 111, 0], some 62⟩]

theorem sample_dir : DirBytes sampleDir .little 0 0 sampleTold 0 := by
  refine .mk [(⟨256, 3, .items [.int 320], none⟩, [0, 1, 3, 0, 1, 0, 0, 0, 64, 1, 0, 0]),
    (⟨258, 8, .items [.int (-1), .int 8], none⟩, [2, 1, 8, 0, 2, 0, 0, 0, 255, 255, 8, 0]),
    (⟨282, 5, .items [.ratio 72 1], some 54⟩, [26, 1, 5, 0, 1, 0, 0, 0, 54, 0, 0, 0]),
    (⟨271, 2, .bytes [72, 101, 108, 108, 111, 0], some 62⟩, [15, 1, 2, 0, 6, 0, 0, 0, 62, 0, 0, 0])]
    0 [4, 0] [0, 0, 0, 0] rfl rfl (by simp) ?_ rfl rfl ⟨sampleDir.drop 54, rfl⟩
  intro p hp
  simp only [List.mem_cons, List.not_mem_nil, or_false] at hp
  rcases hp with rfl | rfl | rfl | rfl
  · exact .inside 256 3 1 _ [0, 1] [3, 0] [1, 0, 0, 0] [64, 1] [0, 0] rfl rfl rfl rfl rfl rfl (by decide)
      (.items [(.int 320, [64, 1])] (by
        intro p hp; simp at hp; subst hp; exact .unsigned 3 2 320 _ (by simp) rfl rfl)) rfl
  · exact .inside 258 8 2 _ [2, 1] [8, 0] [2, 0, 0, 0] [255, 255, 8, 0] [] rfl rfl rfl rfl rfl rfl (by decide)
      (.items [(.int (-1), [255, 255]), (.int 8, [8, 0])] (by
        intro p hp; simp at hp
        rcases hp with rfl | rfl
        · exact .signed 8 2 65535 _ (by simp) rfl rfl
        · exact .signed 8 2 8 _ (by simp) rfl rfl)) rfl
  · exact .outside 282 5 1 54 _ [26, 1] [5, 0] [1, 0, 0, 0] [54, 0, 0, 0] [72, 0, 0, 0, 1, 0, 0, 0] rfl rfl rfl rfl rfl rfl rfl rfl
      (.items [(.ratio 72 1, [72, 0, 0, 0, 1, 0, 0, 0])] (by
        intro p hp; simp at hp; subst hp
        exact .rational 72 1 [72, 0, 0, 0] [1, 0, 0, 0] rfl rfl rfl rfl)) (by decide) ⟨[72, 101, 108, 108, 111, 0], rfl⟩
  · exact .outside 271 2 6 62 _ [15, 1] [2, 0] [6, 0, 0, 0] [62, 0, 0, 0] [72, 101, 108, 108, 111, 0] rfl rfl rfl rfl rfl rfl rfl
      rfl (.bytes [72, 101, 108, 108, 111, 0] (.inl rfl)) (by decide) ⟨[], rfl⟩

example : ∃ s, stringInputStream sampleDir = .ok s ∧
    readDir s .little .ifd (8 * 0 : Nat) (8 * 0 : Nat) = .ok ⟨[(256, 3, some (.items [.int 320])),
      (258, 8, some (.items [.int (-1), .int 8])), (282, 5, some (.items [.ratio 72 1])),
      (271, 2, some (.bytes [72, 101, 108, 108, 111, 0]))], 0⟩ := by
  refine ⟨_, rfl, ?_⟩
  rw [C85_values_partial sampleDir _ rfl .little .ifd 0 0 sampleTold 0 sample_dir (by
    intro t ht off ho
    simp only [sampleTold, List.mem_cons, List.not_mem_nil, or_false] at ht
    rcases ht with rfl | rfl | rfl | rfl <;> simp)]
  rfl

/-- A text before its directory (at byte 8), then a text behind it. -/
def earlyDir : Bytes :=
  [72, 101, 108, 108, 111, 0, 0, 0,
   2, 0,
   15, 1, 2, 0, 6, 0, 0, 0, 0, 0, 0, 0,
   16, 1, 2, 0, 5, 0, 0, 0, 38, 0, 0, 0,
   0, 0, 0, 0,
   72, 105, 33, 33, 0]

theorem early_dir : DirBytes earlyDir .little 0 8
    [⟨271, 2, .bytes [72, 101, 108, 108, 111, 0], some 0⟩, ⟨272, 2, .bytes [72, 105, 33, 33, 0], some 38⟩] 0 := by
  refine .mk [(⟨271, 2, .bytes [72, 101, 108, 108, 111, 0], some 0⟩, [15, 1, 2, 0, 6, 0, 0, 0, 0, 0, 0, 0]),
    (⟨272, 2, .bytes [72, 105, 33, 33, 0], some 38⟩, [16, 1, 2, 0, 5, 0, 0, 0, 38, 0, 0, 0])]
    0 [2, 0] [0, 0, 0, 0] rfl rfl (by simp) ?_ rfl rfl ⟨earlyDir.drop 38, rfl⟩
  intro p hp
  simp only [List.mem_cons, List.not_mem_nil, or_false] at hp
  rcases hp with rfl | rfl
  · exact .outside 271 2 6 0 _ [15, 1] [2, 0] [6, 0, 0, 0] [0, 0, 0, 0] [72, 101, 108, 108, 111, 0] rfl rfl rfl rfl rfl rfl rfl
      rfl (.bytes [72, 101, 108, 108, 111, 0] (.inl rfl)) (by decide) ⟨earlyDir.drop 6, rfl⟩
  · exact .outside 272 2 5 38 _ [16, 1] [2, 0] [5, 0, 0, 0] [38, 0, 0, 0] [72, 105, 33, 33, 0] rfl rfl rfl rfl rfl rfl rfl
      rfl (.bytes [72, 105, 33, 33, 0] (.inl rfl)) (by decide) ⟨[], rfl⟩

/-- Both texts are lost. -/
example : ∃ s, stringInputStream earlyDir = .ok s ∧
    readDir s .little .ifd (8 * 8 : Nat) (8 * 0 : Nat) = .ok ⟨[(271, 2, none), (272, 2, none)], 0⟩ := by
  refine ⟨_, rfl, ?_⟩
  rw [C85_before earlyDir _ rfl .little .ifd 0 8 [] [⟨272, 2, .bytes [72, 105, 33, 33, 0], some 38⟩]
    ⟨271, 2, .bytes [72, 101, 108, 108, 111, 0], some 0⟩ 0 early_dir (by simp) 0 rfl (by decide)]
  rfl

/-! ### C86: the directories found -/

/-- The entries whose values are offsets of other directories have them. -/
def OffsetsRight (dir : Dir) : Prop :=
  ∀ tag type v, (tag, type, v) ∈ dir.entries →
    (tag = 0x8769 ∨ tag = 0x8825 ∨ tag = 0xA005 → ∃ n rest, v = some (.items (.int n :: rest))) ∧
    (tag = 0x014A → ∃ l : List Int, v = some (.items (l.map .int)))

/-- The directories that a directory leads to: EXIF, GPS, interoperability, further images (TIFF
6.0 and EXIF 2.2), and the next one. -/
inductive LeadsTo (dir : Dir) : Int × DirKind → Prop where
  | exif (type : Nat) (n : Int) (rest : List Item) (h : (0x8769, type, some (.items (.int n :: rest))) ∈ dir.entries) :
      LeadsTo dir (n, .exif)
  | gps (type : Nat) (n : Int) (rest : List Item) (h : (0x8825, type, some (.items (.int n :: rest))) ∈ dir.entries) :
      LeadsTo dir (n, .gps)
  | interop (type : Nat) (n : Int) (rest : List Item) (h : (0xA005, type, some (.items (.int n :: rest))) ∈ dir.entries) :
      LeadsTo dir (n, .interop)
  | sub (type : Nat) (n : Int) (l : List Item) (h : (0x014A, type, some (.items l)) ∈ dir.entries) (hn : .int n ∈ l) :
      LeadsTo dir (n, .ifd)
  | next (h : dir.next ≠ 0) : LeadsTo dir (dir.next, .ifd)

/-- The directory at an offset, of a file whose structure begins at `start`. -/
def DirAt (s : InputStream) (e : Endian) (start : Int) (x : Int × DirKind) (dir : Dir) : Prop :=
  readDir s e x.2 ((x.1 + start / 8) * 8) start = .ok dir

/-- The directory at `x` leads to `y` by one or more steps or is `y`. -/
inductive Reach (s : InputStream) (e : Endian) (start : Int) : Int × DirKind → Int × DirKind → Prop where
  | refl (x) : Reach s e start x x
  | step (x y z) (dir : Dir) (hd : DirAt s e start x dir) (hl : LeadsTo dir y) (h : Reach s e start y z) : Reach s e start x z

/-- All directories from `x` on can be read and lead nowhere endlessly. -/
inductive Ends (s : InputStream) (e : Endian) (start : Int) : Int × DirKind → Prop where
  | mk (x) (dir : Dir) (hd : DirAt s e start x dir) (ho : OffsetsRight dir)
      (h : ∀ y, LeadsTo dir y → Ends s e start y) : Ends s e start x

theorem itemOffsets_ok (l : List Item) (os : List Int) : itemOffsets l = .ok os ↔ l = os.map .int := by
  induction l generalizing os with
  | nil => cases os <;> simp [itemOffsets]
  | cons i l ih =>
    cases i with
    | int n =>
      rw [itemOffsets]
      cases os with
      | nil => split <;> simp
      | cons o os =>
        simp only [List.map_cons, List.cons.injEq, Item.int.injEq, ← ih os]
        cases itemOffsets l <;> simp
    | ratio a b => cases os <;> simp [itemOffsets]
    | float b => cases os <;> simp [itemOffsets]

theorem allOffsets_ok (v : Option Value) (os : List Int) : allOffsets v = .ok os ↔ v = some (.items (os.map .int)) := by
  match v with
  | none => simp [allOffsets]
  | some (.bytes b) => simp [allOffsets]
  | some (.items l) => simp [allOffsets, itemOffsets_ok]

theorem firstOffset_ok (v : Option Value) (n : Int) : firstOffset v = .ok n ↔ ∃ rest, v = some (.items (.int n :: rest)) := by
  match v with
  | none => simp [firstOffset]
  | some (.bytes b) => simp [firstOffset]
  | some (.items []) => simp [firstOffset]
  | some (.items (.int m :: rest)) => simp [firstOffset]
  | some (.items (.ratio a b :: rest)) => simp [firstOffset]
  | some (.items (.float b :: rest)) => simp [firstOffset]

/-- What one entry leads to. -/
def entryLeads (tag : Nat) (v : Option Value) (found : List (Int × DirKind)) : Prop :=
  (tag = 0x8769 → ∃ n rest, v = some (.items (.int n :: rest)) ∧ found = [(n, .exif)]) ∧
  (tag = 0x8825 → ∃ n rest, v = some (.items (.int n :: rest)) ∧ found = [(n, .gps)]) ∧
  (tag = 0xA005 → ∃ n rest, v = some (.items (.int n :: rest)) ∧ found = [(n, .interop)]) ∧
  (tag = 0x014A → ∃ l : List Int, v = some (.items (l.map .int)) ∧ found = l.map fun o => (o, .ifd)) ∧
  (tag ≠ 0x8769 → tag ≠ 0x8825 → tag ≠ 0xA005 → tag ≠ 0x014A → found = [])

theorem map_ok {α β : Type} (x : Except PyErr α) (f : α → β) (b : β) : x.map f = .ok b ↔ ∃ a, x = .ok a ∧ f a = b := by
  cases x <;> simp [Except.map]

theorem pointed_cons (tag type : Nat) (v : Option Value) (l : List (Nat × Nat × Option Value)) (more : List (Int × DirKind)) :
    pointed ((tag, type, v) :: l) = .ok more ↔
      ∃ a r, entryLeads tag v a ∧ pointed l = .ok r ∧ more = a ++ r := by
  have key : ∀ a, (if tag = 0x8769 then (firstOffset v).map fun o => [(o, DirKind.exif)]
      else if tag = 0x8825 then (firstOffset v).map fun o => [(o, .gps)]
      else if tag = 0xA005 then (firstOffset v).map fun o => [(o, .interop)]
      else if tag = 0x014A then (allOffsets v).map fun os => os.map fun o => (o, .ifd)
      else .ok []) = .ok a ↔ entryLeads tag v a := by
    intro a
    unfold entryLeads
    by_cases h1 : tag = 0x8769
    · subst h1
      rw [if_pos rfl, map_ok]
      constructor
      · rintro ⟨n, h, rfl⟩
        obtain ⟨rest, h⟩ := (firstOffset_ok v n).1 h
        exact ⟨fun _ => ⟨n, rest, h, rfl⟩, (fun h => by simp at h), (fun h => by simp at h), (fun h => by simp at h),
          (fun h => (h rfl).elim)⟩
      · rintro ⟨h, -⟩
        obtain ⟨n, rest, hv, rfl⟩ := h rfl
        exact ⟨n, (firstOffset_ok v n).2 ⟨rest, hv⟩, rfl⟩
    rw [if_neg h1]
    by_cases h2 : tag = 0x8825
    · subst h2
      rw [if_pos rfl, map_ok]
      constructor
      · rintro ⟨n, h, rfl⟩
        obtain ⟨rest, h⟩ := (firstOffset_ok v n).1 h
        exact ⟨(fun h => by simp at h), fun _ => ⟨n, rest, h, rfl⟩, (fun h => by simp at h), (fun h => by simp at h),
          (fun _ h => (h rfl).elim)⟩
      · rintro ⟨-, h, -⟩
        obtain ⟨n, rest, hv, rfl⟩ := h rfl
        exact ⟨n, (firstOffset_ok v n).2 ⟨rest, hv⟩, rfl⟩
    rw [if_neg h2]
    by_cases h3 : tag = 0xA005
    · subst h3
      rw [if_pos rfl, map_ok]
      constructor
      · rintro ⟨n, h, rfl⟩
        obtain ⟨rest, h⟩ := (firstOffset_ok v n).1 h
        exact ⟨(fun h => by simp at h), (fun h => by simp at h), fun _ => ⟨n, rest, h, rfl⟩, (fun h => by simp at h),
          (fun _ _ h => (h rfl).elim)⟩
      · rintro ⟨-, -, h, -⟩
        obtain ⟨n, rest, hv, rfl⟩ := h rfl
        exact ⟨n, (firstOffset_ok v n).2 ⟨rest, hv⟩, rfl⟩
    rw [if_neg h3]
    by_cases h4 : tag = 0x014A
    · subst h4
      rw [if_pos rfl, map_ok]
      constructor
      · rintro ⟨n, h, rfl⟩
        exact ⟨(fun h => by simp at h), (fun h => by simp at h), (fun h => by simp at h),
          fun _ => ⟨n, (allOffsets_ok v n).1 h, rfl⟩, (fun _ _ _ h => (h rfl).elim)⟩
      · rintro ⟨-, -, -, h, -⟩
        obtain ⟨n, hv, rfl⟩ := h rfl
        exact ⟨n, (allOffsets_ok v n).2 hv, rfl⟩
    rw [if_neg h4]
    constructor
    · intro h
      cases h
      exact ⟨fun h => absurd h h1, fun h => absurd h h2, fun h => absurd h h3, fun h => absurd h h4, fun _ _ _ _ => rfl⟩
    · rintro ⟨-, -, -, -, h⟩
      rw [h h1 h2 h3 h4]
  rw [pointed]
  constructor
  · intro h
    split at h
    · cases h
    · rename_i a ha
      split at h
      · cases h
      · rename_i r hr
        cases h
        exact ⟨a, r, (key a).1 ha, hr, rfl⟩
  · rintro ⟨a, r, ha, hr, rfl⟩
    rw [(key a).2 ha, hr]

theorem entryLink_cons (tag type : Nat) (v : Option Value) (l : List (Nat × Nat × Option Value)) (a : List (Int × DirKind))
    (h : entryLeads tag v a) (y : Int × DirKind) :
    LeadsTo ⟨(tag, type, v) :: l, 0⟩ y ↔ y ∈ a ∨ LeadsTo ⟨l, 0⟩ y := by
  obtain ⟨h1, h2, h3, h4, h5⟩ := h
  constructor
  · intro h
    cases h with
    | exif ty n rest hm =>
      rcases List.mem_cons.1 hm with hm | hm
      · simp only [Prod.mk.injEq] at hm
        obtain ⟨rfl, rfl, rfl⟩ := hm
        obtain ⟨n', rest', he, rfl⟩ := h1 rfl
        simp only [Option.some.injEq, Value.items.injEq, List.cons.injEq, Item.int.injEq] at he
        rw [he.1]; left; simp
      · exact .inr (.exif ty n rest hm)
    | gps ty n rest hm =>
      rcases List.mem_cons.1 hm with hm | hm
      · simp only [Prod.mk.injEq] at hm
        obtain ⟨rfl, rfl, rfl⟩ := hm
        obtain ⟨n', rest', he, rfl⟩ := h2 rfl
        simp only [Option.some.injEq, Value.items.injEq, List.cons.injEq, Item.int.injEq] at he
        rw [he.1]; left; simp
      · exact .inr (.gps ty n rest hm)
    | interop ty n rest hm =>
      rcases List.mem_cons.1 hm with hm | hm
      · simp only [Prod.mk.injEq] at hm
        obtain ⟨rfl, rfl, rfl⟩ := hm
        obtain ⟨n', rest', he, rfl⟩ := h3 rfl
        simp only [Option.some.injEq, Value.items.injEq, List.cons.injEq, Item.int.injEq] at he
        rw [he.1]; left; simp
      · exact .inr (.interop ty n rest hm)
    | sub ty n l' hm hn =>
      rcases List.mem_cons.1 hm with hm | hm
      · simp only [Prod.mk.injEq] at hm
        obtain ⟨rfl, rfl, rfl⟩ := hm
        obtain ⟨os, he, rfl⟩ := h4 rfl
        simp only [Option.some.injEq, Value.items.injEq] at he
        subst he
        left
        simpa using hn
      · exact .inr (.sub ty n l' hm hn)
    | next h => exact absurd rfl h
  · rintro (h | h)
    · by_cases t1 : tag = 0x8769
      · obtain ⟨n, rest, rfl, rfl⟩ := h1 t1
        simp only [List.mem_cons, List.not_mem_nil, or_false] at h
        subst h t1
        exact .exif type n rest (by simp)
      by_cases t2 : tag = 0x8825
      · obtain ⟨n, rest, rfl, rfl⟩ := h2 t2
        simp only [List.mem_cons, List.not_mem_nil, or_false] at h
        subst h t2
        exact .gps type n rest (by simp)
      by_cases t3 : tag = 0xA005
      · obtain ⟨n, rest, rfl, rfl⟩ := h3 t3
        simp only [List.mem_cons, List.not_mem_nil, or_false] at h
        subst h t3
        exact .interop type n rest (by simp)
      by_cases t4 : tag = 0x014A
      · obtain ⟨os, rfl, rfl⟩ := h4 t4
        simp only [List.mem_map] at h
        obtain ⟨o, ho, rfl⟩ := h
        subst t4
        exact .sub type o (os.map .int) (by simp) (by simpa using ho)
      rw [h5 t1 t2 t3 t4] at h
      cases h
    · cases h with
      | exif ty n rest hm => exact .exif ty n rest (List.mem_cons_of_mem _ hm)
      | gps ty n rest hm => exact .gps ty n rest (List.mem_cons_of_mem _ hm)
      | interop ty n rest hm => exact .interop ty n rest (List.mem_cons_of_mem _ hm)
      | sub ty n l' hm hn => exact .sub ty n l' (List.mem_cons_of_mem _ hm) hn
      | next h => exact absurd rfl h

theorem pointed_leads (l : List (Nat × Nat × Option Value)) (more : List (Int × DirKind)) (h : pointed l = .ok more)
    (y : Int × DirKind) : y ∈ more ↔ LeadsTo ⟨l, 0⟩ y := by
  induction l generalizing more with
  | nil =>
    cases h
    constructor
    · intro h; cases h
    · intro h
      cases h with
      | exif _ _ _ h => cases h
      | gps _ _ _ h => cases h
      | interop _ _ _ h => cases h
      | sub _ _ _ h _ => cases h
      | next h => exact absurd rfl h
  | cons p l ih =>
    obtain ⟨tag, type, v⟩ := p
    obtain ⟨a, r, ha, hr, rfl⟩ := (pointed_cons tag type v l more).1 h
    rw [entryLink_cons tag type v l a ha, List.mem_append, ih r hr]

theorem pointed_ok (l : List (Nat × Nat × Option Value)) (nx : Nat) :
    (∃ more, pointed l = .ok more) ↔ OffsetsRight ⟨l, nx⟩ := by
  induction l with
  | nil => exact ⟨(fun _ _ _ _ h => by cases h), fun _ => ⟨[], rfl⟩⟩
  | cons p l ih =>
    obtain ⟨tag, type, v⟩ := p
    constructor
    · rintro ⟨more, h⟩
      obtain ⟨a, r, ⟨h1, h2, h3, h4, h5⟩, hr, rfl⟩ := (pointed_cons tag type v l more).1 h
      intro tag' type' v' hm
      rcases List.mem_cons.1 hm with hm | hm
      · simp only [Prod.mk.injEq] at hm
        obtain ⟨rfl, rfl, rfl⟩ := hm
        constructor
        · rintro (h | h | h)
          · obtain ⟨n, rest, h, _⟩ := h1 h; exact ⟨n, rest, h⟩
          · obtain ⟨n, rest, h, _⟩ := h2 h; exact ⟨n, rest, h⟩
          · obtain ⟨n, rest, h, _⟩ := h3 h; exact ⟨n, rest, h⟩
        · intro h
          obtain ⟨os, h, _⟩ := h4 h
          exact ⟨os, h⟩
      · exact ih.1 ⟨r, hr⟩ tag' type' v' hm
    · intro h
      obtain ⟨r, hr⟩ := ih.2 (fun tag' type' v' hm => h tag' type' v' (List.mem_cons_of_mem _ hm))
      obtain ⟨g1, g2⟩ := h tag type v (by simp)
      have : ∃ a, entryLeads tag v a := by
        unfold entryLeads
        by_cases t1 : tag = 0x8769
        · obtain ⟨n, rest, rfl⟩ := g1 (.inl t1)
          subst t1
          exact ⟨[(n, .exif)], fun _ => ⟨n, rest, rfl, rfl⟩, (fun h => by simp at h), (fun h => by simp at h),
            (fun h => by simp at h), (fun h => (h rfl).elim)⟩
        by_cases t2 : tag = 0x8825
        · obtain ⟨n, rest, rfl⟩ := g1 (.inr (.inl t2))
          subst t2
          exact ⟨[(n, .gps)], (fun h => by simp at h), fun _ => ⟨n, rest, rfl, rfl⟩, (fun h => by simp at h),
            (fun h => by simp at h), (fun _ h => (h rfl).elim)⟩
        by_cases t3 : tag = 0xA005
        · obtain ⟨n, rest, rfl⟩ := g1 (.inr (.inr t3))
          subst t3
          exact ⟨[(n, .interop)], (fun h => by simp at h), (fun h => by simp at h), fun _ => ⟨n, rest, rfl, rfl⟩,
            (fun h => by simp at h), (fun _ _ h => (h rfl).elim)⟩
        by_cases t4 : tag = 0x014A
        · obtain ⟨os, rfl⟩ := g2 t4
          subst t4
          exact ⟨os.map fun o => (o, .ifd), (fun h => by simp at h), (fun h => by simp at h), (fun h => by simp at h),
            fun _ => ⟨os, rfl, rfl⟩, (fun _ _ _ h => (h rfl).elim)⟩
        exact ⟨[], fun h => absurd h t1, fun h => absurd h t2, fun h => absurd h t3, fun h => absurd h t4, fun _ _ _ _ => rfl⟩
      obtain ⟨a, ha⟩ := this
      exact ⟨a ++ r, (pointed_cons tag type v l _).2 ⟨a, r, ha, hr, rfl⟩⟩

theorem leadsTo_next (l : List (Nat × Nat × Option Value)) (nx : Nat) (y : Int × DirKind) :
    LeadsTo ⟨l, nx⟩ y ↔ LeadsTo ⟨l, 0⟩ y ∨ (nx ≠ 0 ∧ y = ((nx : Int), .ifd)) := by
  constructor
  · intro h
    cases h with
    | exif ty n rest hm => exact .inl (.exif ty n rest hm)
    | gps ty n rest hm => exact .inl (.gps ty n rest hm)
    | interop ty n rest hm => exact .inl (.interop ty n rest hm)
    | sub ty n l' hm hn => exact .inl (.sub ty n l' hm hn)
    | next h => exact .inr ⟨h, rfl⟩
  · rintro (h | ⟨h, rfl⟩)
    · cases h with
      | exif ty n rest hm => exact .exif ty n rest hm
      | gps ty n rest hm => exact .gps ty n rest hm
      | interop ty n rest hm => exact .interop ty n rest hm
      | sub ty n l' hm hn => exact .sub ty n l' hm hn
      | next h => exact absurd rfl h
    · exact .next h

/-- What is put into the queue is what the directory leads to. -/
theorem queued (dir : Dir) (more : List (Int × DirKind)) (h : pointed dir.entries = .ok more) (y : Int × DirKind) :
    y ∈ more ++ (if dir.next ≠ 0 then [((dir.next : Int), DirKind.ifd)] else []) ↔ LeadsTo dir y := by
  obtain ⟨l, nx⟩ := dir
  rw [leadsTo_next, List.mem_append, pointed_leads l more h]
  by_cases h0 : nx = 0
  · subst h0; simp
  · simp [h0]

/-! ### The walk -/

theorem walk_reach (s : InputStream) (e : Endian) (start : Int) (n : Nat) (q : List (Int × DirKind))
    (l : List (Int × DirKind × Dir)) (h : walk s e start n q = (l, some (.ok ()))) :
    (∀ o k d, (o, k, d) ∈ l → DirAt s e start (o, k) d) ∧
    (∀ y, (∃ d, (y.1, y.2, d) ∈ l) ↔ ∃ x ∈ q, Reach s e start x y) ∧ (∀ x ∈ q, Ends s e start x) := by
  induction n generalizing q l with
  | zero =>
    cases q with
    | nil => rw [walk] at h; cases h; simp
    | cons x q => simp [walk] at h
  | succ n ih =>
    cases q with
    | nil => rw [walk] at h; cases h; simp
    | cons x q =>
      obtain ⟨o, k⟩ := x
      rw [walk] at h
      split at h
      · simp at h
      · rename_i dir hdir
        split at h
        · simp at h
        · rename_i more hmore
          simp only at h
          rcases hw : walk s e start n (q ++ more ++ (if dir.next ≠ 0 then [((dir.next : Int), DirKind.ifd)] else [])) with ⟨l', r⟩
          simp only [ne_eq, ite_not] at hw h
          rw [hw] at h
          simp only [Prod.mk.injEq] at h
          obtain ⟨rfl, rfl⟩ := h
          obtain ⟨h1, h2, h3⟩ := ih _ _ hw
          have hq : ∀ y, y ∈ q ++ more ++ (if dir.next = 0 then [] else [((dir.next : Int), DirKind.ifd)]) ↔
              y ∈ q ∨ LeadsTo dir y := by
            intro y
            rw [List.append_assoc, List.mem_append, ← queued dir more hmore]
            simp only [ne_eq, ite_not]
          have hd : DirAt s e start (o, k) dir := hdir
          refine ⟨?_, ?_, ?_⟩
          · intro o' k' d' hm
            rcases List.mem_cons.1 hm with hm | hm
            · cases hm; exact hd
            · exact h1 o' k' d' hm
          · intro y
            constructor
            · rintro ⟨d, hm⟩
              rcases List.mem_cons.1 hm with hm | hm
              · simp only [Prod.mk.injEq] at hm
                exact ⟨(o, k), by simp, by rw [← hm.1, ← hm.2.1]; exact .refl y⟩
              · obtain ⟨x, hx, hr⟩ := (h2 y).1 ⟨d, hm⟩
                rcases (hq x).1 hx with hx | hx
                · exact ⟨x, by simp [hx], hr⟩
                · exact ⟨(o, k), by simp, .step _ x _ dir hd hx hr⟩
            · rintro ⟨x, hx, hr⟩
              rcases List.mem_cons.1 hx with rfl | hx
              · cases hr with
                | refl => exact ⟨dir, by simp⟩
                | step _ z _ dir' hd' hl hr =>
                  have : dir' = dir := by
                    unfold DirAt at hd hd'
                    rw [hd] at hd'
                    cases hd'; rfl
                  subst this
                  obtain ⟨d, hm⟩ := (h2 y).2 ⟨z, (hq z).2 (.inr hl), hr⟩
                  exact ⟨d, by simp [hm]⟩
              · obtain ⟨d, hm⟩ := (h2 y).2 ⟨x, (hq x).2 (.inl hx), hr⟩
                exact ⟨d, by simp [hm]⟩
          · intro x hx
            rcases List.mem_cons.1 hx with rfl | hx
            · exact .mk _ dir hd ((pointed_ok dir.entries dir.next).1 ⟨more, hmore⟩) fun y hy => h3 y ((hq y).2 (.inr hy))
            · exact h3 x ((hq x).2 (.inl hx))

/-- The number of directories of the trees that begin with the directories of a list. -/
inductive Forest (s : InputStream) (e : Endian) (start : Int) : List (Int × DirKind) → Nat → Prop where
  | nil : Forest s e start [] 0
  | cons (x) (dir : Dir) (more q : List (Int × DirKind)) (a b : Nat) (hd : DirAt s e start x dir)
      (hm : pointed dir.entries = .ok more)
      (h1 : Forest s e start (more ++ (if dir.next ≠ 0 then [((dir.next : Int), DirKind.ifd)] else [])) a)
      (h2 : Forest s e start q b) : Forest s e start (x :: q) (a + b + 1)

theorem forest_append (s : InputStream) (e : Endian) (start : Int) (q r : List (Int × DirKind)) (a b : Nat)
    (h1 : Forest s e start q a) (h2 : Forest s e start r b) : Forest s e start (q ++ r) (a + b) := by
  induction h1 with
  | nil => simpa using h2
  | cons x dir more q a' b' hd hm h1 h3 ih1 ih2 =>
    have := Forest.cons x dir more _ a' (b' + b) hd hm h1 ih2
    rw [show a' + b' + 1 + b = a' + (b' + b) + 1 by omega]
    exact this

theorem forest_of_ends (s : InputStream) (e : Endian) (start : Int) (q : List (Int × DirKind))
    (h : ∀ x ∈ q, ∃ m, Forest s e start [x] m) : ∃ m, Forest s e start q m := by
  induction q with
  | nil => exact ⟨0, .nil⟩
  | cons x q ih =>
    obtain ⟨a, ha⟩ := h x (by simp)
    obtain ⟨b, hb⟩ := ih (fun y hy => h y (by simp [hy]))
    exact ⟨a + b, forest_append s e start [x] q a b ha hb⟩

theorem ends_forest (s : InputStream) (e : Endian) (start : Int) (x : Int × DirKind) (h : Ends s e start x) :
    ∃ m, Forest s e start [x] m := by
  induction h with
  | mk x dir hd ho h ih =>
    obtain ⟨more, hm⟩ := (pointed_ok dir.entries dir.next).2 ho
    obtain ⟨a, ha⟩ := forest_of_ends s e start (more ++ (if dir.next ≠ 0 then [((dir.next : Int), DirKind.ifd)] else []))
      (fun y hy => ih y ((queued dir more hm y).1 hy))
    exact ⟨a + 0 + 1, .cons x dir more [] a 0 hd hm ha .nil⟩

theorem walk_forest (s : InputStream) (e : Endian) (start : Int) (n : Nat) (q : List (Int × DirKind))
    (h : Forest s e start q n) : ∃ l, walk s e start n q = (l, some (.ok ())) ∧ l.length = n := by
  induction n generalizing q with
  | zero =>
    cases h with
    | nil => exact ⟨[], by simp [walk]⟩
  | succ n ih =>
    rcases hq : q with _ | ⟨x, q'⟩
    · subst hq; cases h
    · subst hq
      obtain ⟨o, k⟩ := x
      cases h with
      | cons _ dir more _ a b hd hm h1 h2 =>
        have hf := forest_append s e start _ _ _ _ h2 h1
        rw [Nat.add_comm b a, ← List.append_assoc] at hf
        obtain ⟨l, hl, hlen⟩ := ih _ hf
        refine ⟨(o, k, dir) :: l, ?_, by simp [hlen]⟩
        rw [walk]
        unfold DirAt at hd
        simp only [hd, hm, hl]

/-- C86: the parser comes to an end without an error exactly when all directories can be read and
their links have no cycle, and then it has found exactly the directories that can be reached from
the first one, as they are in the file. -/
theorem C86_found (s : InputStream) (e : Endian) (start : Int) (x : Int × DirKind) :
    ((∃ n l, walk s e start n [x] = (l, some (.ok ()))) ↔ Ends s e start x) ∧
    ∀ n l, walk s e start n [x] = (l, some (.ok ())) →
      (∀ o k d, (o, k, d) ∈ l → DirAt s e start (o, k) d) ∧
      (∀ y, (∃ d, (y.1, y.2, d) ∈ l) ↔ Reach s e start x y) := by
  refine ⟨⟨?_, ?_⟩, ?_⟩
  · rintro ⟨n, l, h⟩
    exact (walk_reach s e start n [x] l h).2.2 x (by simp)
  · intro h
    obtain ⟨m, hm⟩ := ends_forest s e start x h
    obtain ⟨l, hl, _⟩ := walk_forest s e start m [x] hm
    exact ⟨m, l, hl⟩
  · intro n l h
    obtain ⟨h1, h2, _⟩ := walk_reach s e start n [x] l h
    refine ⟨h1, fun y => ?_⟩
    rw [h2 y]
    simp

theorem reach_trans (s : InputStream) (e : Endian) (start : Int) (x y z : Int × DirKind) (h1 : Reach s e start x y)
    (h2 : Reach s e start y z) : Reach s e start x z := by
  induction h1 with
  | refl => exact h2
  | step x y' z' dir hd hl h ih => exact .step _ _ _ dir hd hl (ih h2)

theorem ends_reach (s : InputStream) (e : Endian) (start : Int) (x y : Int × DirKind) (h : Reach s e start x y)
    (hx : Ends s e start x) : Ends s e start y := by
  induction h with
  | refl => exact hx
  | step x y z dir hd hl h ih =>
    cases hx with
    | mk _ dir' hd' ho h' =>
      unfold DirAt at hd hd'
      rw [hd] at hd'
      cases hd'
      exact ih (h' y hl)

theorem ends_acyclic (s : InputStream) (e : Endian) (start : Int) (x : Int × DirKind) (h : Ends s e start x) :
    ∀ dir y, DirAt s e start x dir → LeadsTo dir y → ¬ Reach s e start y x := by
  induction h with
  | mk x dir hd ho h ih =>
    intro dir' y hd' hl hr
    have heq : dir' = dir := by
      unfold DirAt at hd hd'
      rw [hd] at hd'
      cases hd'; rfl
    subst heq
    cases hr with
    | refl => exact ih _ hl dir' _ hd hl (.refl _)
    | step _ z _ dir2 hd2 hl2 hr2 =>
      exact ih y hl dir2 z hd2 hl2 (reach_trans s e start z x y hr2 (.step _ _ _ dir' hd hl (.refl _)))

theorem walk_goes_on (s : InputStream) (e : Endian) (start : Int) (n : Nat) (q : List (Int × DirKind))
    (h : ∀ x ∈ q, ∀ y, Reach s e start x y → ∃ dir, DirAt s e start y dir ∧ OffsetsRight dir) :
    ∃ l, walk s e start n q = (l, some (.ok ())) ∨ (walk s e start n q = (l, none) ∧ l.length = n) := by
  induction n generalizing q with
  | zero =>
    cases q with
    | nil => exact ⟨[], .inl (by simp [walk])⟩
    | cons x q => exact ⟨[], .inr ⟨by simp [walk], rfl⟩⟩
  | succ n ih =>
    cases q with
    | nil => exact ⟨[], .inl (by simp [walk])⟩
    | cons x q =>
      obtain ⟨o, k⟩ := x
      obtain ⟨dir, hd, ho⟩ := h (o, k) (by simp) _ (.refl _)
      obtain ⟨more, hm⟩ := (pointed_ok dir.entries dir.next).2 ho
      obtain ⟨l, hl⟩ := ih (q ++ more ++ (if dir.next ≠ 0 then [((dir.next : Int), DirKind.ifd)] else [])) (by
        intro x hx y hr
        rw [List.append_assoc] at hx
        rcases List.mem_append.1 hx with hx | hx
        · exact h x (by simp [hx]) y hr
        · exact h (o, k) (by simp) y (.step _ x _ dir hd ((queued dir more hm x).1 hx) hr))
      unfold DirAt at hd
      refine ⟨(o, k, dir) :: l, ?_⟩
      rw [walk]
      simp only [hd, hm]
      rcases hl with hl | ⟨hl, hlen⟩
      · left; rw [hl]
      · right; rw [hl]; exact ⟨rfl, by simp [hlen]⟩

/-- C86 (disagreement): if the directories can be read but one of them leads back to itself, the
parser never comes to an end: it makes the same directories again and again. -/
theorem C86_endless (s : InputStream) (e : Endian) (start : Int) (x y z : Int × DirKind) (dir : Dir)
    (hok : ∀ y, Reach s e start x y → ∃ dir, DirAt s e start y dir ∧ OffsetsRight dir)
    (hy : Reach s e start x y) (hd : DirAt s e start y dir) (hl : LeadsTo dir z) (hz : Reach s e start z y) (n : Nat) :
    ∃ l, walk s e start n [x] = (l, none) ∧ l.length = n := by
  obtain ⟨l, h | h⟩ := walk_goes_on s e start n [x] (by simpa using hok)
  · exfalso
    have hends := ((C86_found s e start x).1).1 ⟨n, l, h⟩
    exact ends_acyclic s e start y (ends_reach s e start x y hy hends) dir z hd hl hz
  · exact ⟨l, h⟩

/-- C86: the header tells the byte order and the first directory. -/
theorem C86_header (data : Bytes) (s : InputStream) (hs : stringInputStream data = .ok s) (n base first : Nat)
    (e : Endian) (mark version o : Bytes) (hm : e = .little ∧ mark = [73, 73] ∨ e = .big ∧ mark = [77, 77])
    (hv : version.length = 2) (ho : o.length = 4) (hn : numberIn e o = some first)
    (hp : (mark ++ (version ++ o)) <+: data.drop base) :
    tiff s n (8 * base : Nat) = .ok (walk s e (8 * base : Nat) n [((first : Int), .ifd)]) := by
  have hmark := readBytes_prefix data s hs base mark (prefix_left hp)
  have hlen : mark.length = 2 := by rcases hm with ⟨_, rfl⟩ | ⟨_, rfl⟩ <;> rfl
  have p1 := drop_prefix hp
  have p2 := drop_prefix p1
  rw [hlen] at p1 p2
  rw [hv] at p2
  rw [hlen] at hmark
  have hnum := read_number data s hs e (base + 2 + 2) first o (ne_nil_of_length ho (by omega)) hn p2 32 (by rw [ho])
    (((8 * base : Nat) : Int) + 32) (by omega)
  unfold tiff
  simp only [hmark]
  rcases hm with ⟨rfl, rfl⟩ | ⟨rfl, rfl⟩
  · rw [if_neg (by simp)]
    simp only [if_true, hnum]
  · rw [if_neg (by simp)]
    rw [if_neg (by decide)]
    simp only [hnum]

/-- A file of two directories, the first one tells the second one as the next. -/
def twoFile : Bytes :=
  [77, 77, 0, 42, 0, 0, 0, 8,
   0, 1, 1, 0, 0, 3, 0, 0, 0, 1, 1, 64, 0, 0, 0, 0, 0, 26,
   0, 1, 1, 1, 0, 1, 0, 0, 0, 1, 7, 0, 0, 0, 0, 0, 0, 0]

example : ∃ s l, stringInputStream twoFile = .ok s ∧ walk s .big 0 2 [(8, .ifd)] = (l, some (.ok ())) ∧
    l = [(8, .ifd, ⟨[(256, 3, some (.items [.int 320]))], 26⟩), (26, .ifd, ⟨[(257, 1, some (.items [.int 7]))], 0⟩)] ∧
    Ends s .big 0 (8, .ifd) ∧ Reach s .big 0 (8, .ifd) (26, .ifd) := by
  have hw : ∃ s, stringInputStream twoFile = .ok s ∧ walk s .big 0 2 [(8, .ifd)] =
      ([(8, .ifd, ⟨[(256, 3, some (.items [.int 320]))], 26⟩), (26, .ifd, ⟨[(257, 1, some (.items [.int 7]))], 0⟩)],
        some (.ok ())) := ⟨_, rfl, by decide +kernel⟩
  obtain ⟨s, hs, hw⟩ := hw
  exact ⟨s, _, hs, hw, rfl, ((C86_found s .big 0 _).1).1 ⟨2, _, hw⟩,
    (((C86_found s .big 0 _).2 2 _ hw).2 (26, .ifd)).1 ⟨⟨[(257, 1, some (.items [.int 7]))], 0⟩, by simp⟩⟩

/-- A file of one directory that tells itself as the next one. -/
def loopFile : Bytes :=
  [73, 73, 42, 0, 8, 0, 0, 0,
   1, 0, 0, 1, 3, 0, 1, 0, 0, 0, 64, 1, 0, 0, 8, 0, 0, 0]

example (n : Nat) : ∃ s, stringInputStream loopFile = .ok s ∧
    ∃ l, tiff s n (8 * 0 : Nat) = .ok (l, none) ∧ l.length = n := by
  obtain ⟨s, hs⟩ : ∃ s, stringInputStream loopFile = .ok s := ⟨_, rfl⟩
  refine ⟨s, hs, ?_⟩
  rw [C86_header loopFile s hs n 0 8 .little [73, 73] [42, 0] [8, 0, 0, 0] (.inl ⟨rfl, rfl⟩) rfl rfl rfl ⟨loopFile.drop 8, rfl⟩]
  have hdir : DirAt s .little (8 * 0 : Nat) (((8 : Nat) : Int), .ifd) ⟨[(256, 3, some (.items [.int 320]))], 8⟩ := by
    have := C85_values_partial loopFile s hs .little .ifd 0 8 [⟨256, 3, .items [.int 320], none⟩] 8 (by
      refine .mk [(⟨256, 3, .items [.int 320], none⟩, [0, 1, 3, 0, 1, 0, 0, 0, 64, 1, 0, 0])] 8 [1, 0] [8, 0, 0, 0] rfl rfl
        (by simp) ?_ rfl rfl ⟨[], rfl⟩
      intro p hp
      simp only [List.mem_cons, List.not_mem_nil, or_false] at hp
      subst hp
      exact .inside 256 3 1 _ [0, 1] [3, 0] [1, 0, 0, 0] [64, 1] [0, 0] rfl rfl rfl rfl rfl rfl (by decide)
        (.items [(.int 320, [64, 1])] (by
          intro p hp; simp at hp; subst hp; exact .unsigned 3 2 320 _ (by simp) rfl rfl)) rfl)
      (by intro t ht off ho; simp at ht; subst ht; cases ho)
    exact this
  have hright : OffsetsRight ⟨[(256, 3, some (.items [.int 320]))], 8⟩ := by
    intro tag type v hm
    simp only [List.mem_cons, Prod.mk.injEq, List.not_mem_nil, or_false] at hm
    obtain ⟨rfl, rfl, rfl⟩ := hm
    exact ⟨by simp, by simp⟩
  have hlead : ∀ y, LeadsTo ⟨[(256, 3, some (.items [.int 320]))], 8⟩ y → y = (((8 : Nat) : Int), .ifd) := by
    intro y h
    cases h with
    | exif _ _ _ h => simp at h
    | gps _ _ _ h => simp at h
    | interop _ _ _ h => simp at h
    | sub _ _ _ h _ => simp at h
    | next h => rfl
  have hreach : ∀ x y, Reach s .little (8 * 0 : Nat) x y → x = (((8 : Nat) : Int), .ifd) → y = (((8 : Nat) : Int), .ifd) := by
    intro x y h
    induction h with
    | refl => exact id
    | step x y z dir hd hl h ih =>
      rintro rfl
      unfold DirAt at hd hdir
      rw [hdir] at hd
      cases hd
      exact ih (hlead y hl)
  obtain ⟨l, h1, h2⟩ := C86_endless s .little (8 * 0 : Nat) (((8 : Nat) : Int), .ifd) (((8 : Nat) : Int), .ifd)
    (((8 : Nat) : Int), .ifd) _ (fun y hy => by rw [hreach _ y hy rfl]; exact ⟨_, hdir, hright⟩) (.refl _) hdir
    (.next (by decide)) (.refl _) n
  exact ⟨l, by rw [h1], h2⟩

end Hachoir.Props

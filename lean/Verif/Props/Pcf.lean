import Verif.Formats.Pcf
import Verif.Props.Cab
import Verif.Props.Elf

/-!
# C151: X11 fonts
-/

namespace Hachoir.Props
open Hachoir Hachoir.Stream Hachoir.Field Hachoir.Formats Spec

/-! ## Texts in a pool -/

/-- A thing of the pool: its key, the bytes before it, its bytes, what is read. -/
structure Pooled (γ α : Type) where
  key : γ
  gap : Bytes
  bytes : Bytes
  val : α

/-- The keys tell the places in the pool. -/
def PoolPlaces {γ α : Type} (off : γ → Nat) : Nat → List (Pooled γ α) → Prop
  | _, [] => True
  | o, x :: xs => off x.key = o + x.gap.length ∧ x.bytes ≠ [] ∧ PoolPlaces off (o + x.gap.length + x.bytes.length) xs

def poolBytes {γ α : Type} (xs : List (Pooled γ α)) : Bytes := xs.flatMap fun x => x.gap ++ x.bytes

theorem pool_ge {γ α : Type} (off : γ → Nat) : ∀ (xs : List (Pooled γ α)) (o : Nat), PoolPlaces off o xs → ∀ x ∈ xs, o ≤ off x.key
  | [], _, _, _, h => by cases h
  | y :: ys, o, hp, x, h => by
    obtain ⟨h1, _, h3⟩ := hp
    rcases List.mem_cons.1 h with rfl | h
    · omega
    · have := pool_ge off ys _ h3 x h
      omega

theorem pool_sorted {γ α : Type} (off : γ → Nat) : ∀ (xs : List (Pooled γ α)) (o : Nat), PoolPlaces off o xs →
    (xs.map (·.key)).Pairwise fun a b => off a < off b
  | [], _, _ => List.Pairwise.nil
  | x :: xs, o, hp => by
    obtain ⟨h1, h2, h3⟩ := hp
    have hl := List.length_pos_iff.2 h2
    rw [List.map_cons, List.pairwise_cons]
    refine ⟨fun k hk => ?_, pool_sorted off xs _ h3⟩
    obtain ⟨y, hy, rfl⟩ := List.mem_map.1 hk
    have := pool_ge off xs _ h3 y hy
    omega

/-- Sorting things with different places. -/
theorem mergeSort_places {γ : Type} (off : γ → Nat) (l t : List γ) (hp : l.Perm t) (ht : t.Pairwise fun a b => off a < off b) :
    l.mergeSort (fun a b => decide (off a ≤ off b)) = t := by
  have hs : (l.mergeSort fun a b => decide (off a ≤ off b)).Pairwise fun a b => off a ≤ off b := by
    have := List.pairwise_mergeSort (le := fun a b : γ => decide (off a ≤ off b)) (by intro a b c h1 h2; simp at *; omega)
      (by intro a b; simp; omega) l
    simpa using this
  refine List.Perm.eq_of_pairwise (le := fun a b => off a ≤ off b) ?_ hs (ht.imp fun h => by omega) ((List.mergeSort_perm _ _).trans hp)
  intro a b ha hb h1 h2
  by_contra hne
  have ha' : a ∈ t := hp.mem_iff.1 ((List.mergeSort_perm _ _).mem_iff.1 ha)
  have hd : t.Pairwise fun a b => off a ≠ off b := ht.imp fun h => by omega
  have : Std.Symm (fun a b : γ => off a ≠ off b) := ⟨fun _ _ h => h.symm⟩
  exact List.Pairwise.forall (R := fun a b => off a ≠ off b) hd ha' hb hne (by omega)

theorem reads_pool {γ α : Type} (g : γ → Rd α) (off : γ → Nat) (data : Bytes) (s : InputStream) (hs : stringInputStream data = .ok s) (base stop : Nat) :
    ∀ (xs : List (Pooled γ α)) (o : Nat), PoolPlaces off o xs → (∀ x ∈ xs, Reads (g x.key) x.val x.bytes) → poolBytes xs <+: data.drop (base + o) →
      8 * (base + o + (poolBytes xs).length) ≤ stop →
      Rd.each (fun x => Rd.seek (base + off x) >>= fun _ => g x) (xs.map (·.key)) s stop (8 * (base + o)) =
        .ok (xs.map (·.val), 8 * (base + o + (poolBytes xs).length))
  | [], o, _, _, _, _ => rfl
  | x :: xs, o, hp, h, hb, hst => by
    obtain ⟨h1, _, h3⟩ := hp
    rw [poolBytes, List.flatMap_cons, List.append_assoc] at hb hst
    rw [List.length_append, List.length_append] at hst
    have hb1 := drop_prefix hb
    have hb2 := drop_prefix hb1
    have r := h x (by simp) data s hs _ stop (prefix_left hb1) (by omega)
    have ih := reads_pool g off data s hs base stop xs (o + x.gap.length + x.bytes.length) h3 (fun y hy => h y (by simp [hy]))
      (by rw [show base + (o + x.gap.length + x.bytes.length) = base + o + x.gap.length + x.bytes.length by omega]; exact hb2)
      (by rw [poolBytes]; omega)
    rw [List.map_cons, List.map_cons, Rd.each, Rd.bind]
    have r1 : (Rd.seek (base + off x.key) >>= fun _ => g x.key) s stop (8 * (base + o)) =
        .ok (x.val, 8 * (base + o + x.gap.length + x.bytes.length)) := by
      show Rd.bind (Rd.seek (base + off x.key)) (fun _ => g x.key) s stop (8 * (base + o)) = _
      rw [Rd.bind, Rd.seek, if_neg (by omega)]
      simp only []
      rw [show base + off x.key = base + o + x.gap.length by omega, r]
    rw [r1]
    simp only []
    rw [Rd.bind, show base + o + x.gap.length + x.bytes.length = base + (o + x.gap.length + x.bytes.length) by omega, ih]
    simp only [Rd.pure, Except.ok.injEq, Prod.mk.injEq, true_and]
    rw [poolBytes, poolBytes, List.flatMap_cons, List.length_append, List.length_append]
    omega

/-- Keys in any order, a number, and the pool. -/
theorem reads_pooled {γ α : Type} (g : γ → Rd α) (off : γ → Nat) (keys : List γ) (xs : List (Pooled γ α)) (hp : PoolPlaces off 0 xs)
    (h : ∀ x ∈ xs, Reads (g x.key) x.val x.bytes) (hk : keys.Perm (xs.map (·.key))) :
    Reads (Rd.place >>= fun a => Rd.each (fun x => Rd.seek (a / 8 + off x) >>= fun _ => g x) (keys.mergeSort fun a b => decide (off a ≤ off b)))
      (xs.map (·.val)) (poolBytes xs) := by
  intro data s hs k stop hb hst
  show Rd.bind Rd.place _ s stop (8 * k) = _
  rw [Rd.bind, Rd.place]
  simp only []
  rw [mergeSort_places off keys _ hk (pool_sorted off xs 0 hp), show 8 * k / 8 = k by omega]
  have := reads_pool g off data s hs k stop xs 0 hp h (by simpa using hb) (by rw [Nat.add_zero]; omega)
  simpa using this

/-! ## Properties -/

/-- A property: name, text or number, and the bytes before its name in the pool. -/
structure PcfText where
  gap : Bytes
  name : Bytes
  value : Option Bytes
  flag : Nat
  number : Nat

structure PcfTextGood (x : PcfText) : Prop where
  name : ∀ c ∈ x.name, c ≠ 0
  value : ∀ v ∈ x.value, ∀ c ∈ v, c ≠ 0
  flag : x.flag < 256
  text : x.value.isSome = decide (x.flag ≠ 0)
  number : x.number < 2 ^ 32

/-- The bytes of name and text. -/
def PcfText.bytes (x : PcfText) : Bytes := x.name ++ [0] ++ (match x.value with | some v => v ++ [0] | none => [])

/-- The properties with their places in the pool (X11: offset of the name, offset of the text or the number). -/
def pcfPooled : Nat → List PcfText → List (Pooled Pcf.Property (Pcf.Property × Bytes × Option Bytes))
  | _, [] => []
  | o, x :: xs =>
    let p : Pcf.Property := ⟨o + x.gap.length, x.flag, if x.value.isSome then o + x.gap.length + x.name.length + 1 else x.number⟩
    ⟨p, x.gap, x.bytes, (p, x.name, x.value)⟩ :: pcfPooled (o + x.gap.length + x.bytes.length) xs

theorem pcf_places : ∀ (xs : List PcfText) (o : Nat), PoolPlaces (·.name) o (pcfPooled o xs)
  | [], _ => trivial
  | x :: xs, o => ⟨rfl, by simp [PcfText.bytes], pcf_places xs _⟩

theorem reads_pcf_cstring (b : Bytes) (h : ∀ x ∈ b, x ≠ 0) : Reads Pcf.cstring b (b ++ [0]) :=
  reads_cstring .little (by decide) .eightBit (.inl rfl) b h

theorem reads_pcf_value (x : PcfText) (g : PcfTextGood x) :
    Reads (Pcf.valueOf x.flag) x.value (match x.value with | some v => v ++ [0] | none => []) := by
  have ht := g.text
  cases hv : x.value with
  | none =>
    rw [hv] at ht
    have h0 : x.flag = 0 := by simpa using ht
    rw [Pcf.valueOf, if_pos h0]
    exact reads_pure _
  | some v =>
    rw [hv] at ht
    have h0 : x.flag ≠ 0 := by simpa using ht
    rw [Pcf.valueOf, if_neg h0]
    exact Reads.map (f := some) (reads_pcf_cstring v (g.value v (by rw [hv]; rfl)))

def namedRest (p : Pcf.Property) : Rd (Pcf.Property × Bytes × Option Bytes) := do
  let name ← Pcf.cstring
  let value ← Pcf.valueOf p.isString
  pure (p, name, value)

theorem reads_pcf_items : ∀ (xs : List PcfText) (o : Nat), (∀ x ∈ xs, PcfTextGood x) → ∀ y ∈ pcfPooled o xs, Reads (namedRest y.key) y.val y.bytes
  | [], _, _, _, h => by cases h
  | x :: xs, o, hg, y, h => by
    rw [pcfPooled] at h
    rcases List.mem_cons.1 h with rfl | h
    · have g := hg x (by simp)
      refine Reads.of_eq (Reads.bind (reads_pcf_cstring x.name g.name) (Reads.map (f := fun v => (_, x.name, v)) (reads_pcf_value x g))) rfl ?_
      rfl
    · exact reads_pcf_items xs _ (fun z hz => hg z (by simp [hz])) y h

/-- The bytes of the table: format, properties in any order, padding, names and texts. -/
def pcfProperties (e : Endian) (fs : List Nat) (ps : List Pcf.Property) (pad : Bytes) (total : Nat) (pool : Bytes) : Bytes :=
  leBytes 4 (joinLE [2, 1, 1, 2, 26] fs) ++ (numBytes e 4 ps.length ++ (ps.flatMap (fun p => numBytes e 4 p.name ++ (numBytes e 1 p.isString ++ numBytes e 4 p.value)) ++
    (pad ++ (numBytes e 4 total ++ pool))))

/-- The third bit of the format tells the byte order. -/
def PcfFormat (e : Endian) (fs : List Nat) : Prop :=
  Fit [2, 1, 1, 2, 26] fs ∧ (e = .big ∧ joinLE [2, 1, 1, 2, 26] fs / 4 % 2 = 1 ∨ e = .little ∧ joinLE [2, 1, 1, 2, 26] fs / 4 % 2 = 0)

theorem pcf_endian (e : Endian) (fs : List Nat) (h : PcfFormat e fs) : Pcf.endianOf fs = e := by
  obtain ⟨hf, he⟩ := h
  match fs, hf with
  | [a, b, c, d, f], hf =>
    obtain ⟨h1, h2, -⟩ := hf
    simp only [joinLE] at he
    rw [Pcf.endianOf]
    have hb : ([a, b, c, d, f] : List Nat).getD 1 0 = b := rfl
    rw [hb]
    rcases he with ⟨rfl, he⟩ | ⟨rfl, he⟩
    · rw [if_pos (by omega)]
    · rw [if_neg (by omega)]

/-- **C151**: the names and texts of all properties are read, in both byte orders and whatever the order of the properties and the bytes between
the names; a text has to follow the name of its property.  (Missing: texts elsewhere, `C151_text_wrong`.) -/
theorem C151_properties_partial (e : Endian) (fs : List Nat) (hf : PcfFormat e fs) (xs : List PcfText) (g : ∀ x ∈ xs, PcfTextGood x)
    (ps : List Pcf.Property) (hp : ps.Perm ((pcfPooled 0 xs).map (·.key))) (hn : ps.length < 2 ^ 32)
    (hs : ∀ p ∈ ps, p.name < 2 ^ 32 ∧ p.isString < 256 ∧ p.value < 2 ^ 32) (pad : Bytes) (hpad : (ps.length + pad.length) % 4 = 0) (hpad4 : pad.length < 4)
    (total : Nat) (ht : total < 2 ^ 32) :
    Reads Pcf.properties ((pcfPooled 0 xs).map (·.val)) (pcfProperties e fs ps pad total (poolBytes (pcfPooled 0 xs))) := by
  have he : e ≠ .middle := by rcases hf.2 with ⟨rfl, _⟩ | ⟨rfl, _⟩ <;> decide
  refine Reads.bind (reads_packed_le 4 _ _ (by decide) rfl hf.1) ?_
  rw [pcf_endian e fs hf]
  refine Reads.bind (reads_number e he 4 _ (by decide) hn) ?_
  refine Reads.bind (reads_times (Pcf.property e) _ ps fun p hp => ?_) ?_
  · obtain ⟨h1, h2, h3⟩ := hs p hp
    refine Reads.bind (reads_number e he 4 _ (by decide) h1) ?_
    refine Reads.bind (reads_number e he 1 _ (by decide) h2) ?_
    exact Reads.map (f := fun v => Pcf.Property.mk p.name p.isString v) (reads_number e he 4 _ (by decide) h3)
  · refine Reads.bind (reads_raw_or pad _ (by omega)) ?_
    refine Reads.bind (reads_number e he 4 _ (by decide) ht) ?_
    exact reads_pooled namedRest (·.name) ps (pcfPooled 0 xs) (pcf_places xs 0) (reads_pcf_items xs 0 g) hp

/-- What is read of a property does not depend on the place of its text that it tells. -/
theorem C151_text_wrong (base : Nat) (p : Pcf.Property) (v : Nat) (s : InputStream) (stop addr : Nat) :
    (Pcf.named base { p with value := v } s stop addr).map (fun r => (r.1.2, r.2)) = (Pcf.named base p s stop addr).map fun r => (r.1.2, r.2) := by
  show Except.map _ (Rd.bind (Rd.seek (base + p.name)) _ s stop addr) = Except.map _ (Rd.bind (Rd.seek (base + p.name)) _ s stop addr)
  rw [Rd.bind, Rd.bind]
  cases Rd.seek (base + p.name) s stop addr with
  | error e => rfl
  | ok a =>
    show Except.map _ (Rd.bind Pcf.cstring _ s stop a.2) = Except.map _ (Rd.bind Pcf.cstring _ s stop a.2)
    rw [Rd.bind, Rd.bind]
    cases Pcf.cstring s stop a.2 with
    | error e => rfl
    | ok b =>
      show Except.map _ (Rd.bind (Pcf.valueOf p.isString) _ s stop b.2) = Except.map _ (Rd.bind (Pcf.valueOf p.isString) _ s stop b.2)
      rw [Rd.bind, Rd.bind]
      cases Pcf.valueOf p.isString s stop b.2 with
      | error e => rfl
      | ok c => rfl

/-! ## Names of glyphs -/

/-- Names with the bytes before them. -/
def glyphPooled : Nat → List (Bytes × Bytes) → List (Pooled Nat Bytes)
  | _, [] => []
  | o, x :: xs => ⟨o + x.1.length, x.1, x.2 ++ [0], x.2⟩ :: glyphPooled (o + x.1.length + (x.2 ++ [0]).length) xs

theorem glyph_places : ∀ (xs : List (Bytes × Bytes)) (o : Nat), PoolPlaces (fun n => n) o (glyphPooled o xs)
  | [], _ => trivial
  | x :: xs, o => ⟨rfl, by simp, glyph_places xs _⟩

theorem reads_glyph_items : ∀ (xs : List (Bytes × Bytes)) (o : Nat), (∀ x ∈ xs, ∀ c ∈ x.2, c ≠ 0) → ∀ y ∈ glyphPooled o xs, Reads Pcf.cstring y.val y.bytes
  | [], _, _, _, h => by cases h
  | x :: xs, o, hg, y, h => by
    rw [glyphPooled] at h
    rcases List.mem_cons.1 h with rfl | h
    · exact reads_pcf_cstring x.2 (hg x (by simp))
    · exact reads_glyph_items xs _ (fun z hz => hg z (by simp [hz])) y h

theorem glyph_vals : ∀ (xs : List (Bytes × Bytes)) (o : Nat), (glyphPooled o xs).map (·.val) = xs.map (·.2)
  | [], _ => rfl
  | x :: xs, o => by rw [glyphPooled, List.map_cons, glyph_vals xs, List.map_cons]

def pcfGlyphs (e : Endian) (fs os : List Nat) (total : Nat) (pool : Bytes) : Bytes :=
  leBytes 4 (joinLE [2, 1, 1, 2, 26] fs) ++ (numBytes e 4 os.length ++ (os.flatMap (numBytes e 4) ++ (numBytes e 4 total ++ pool)))

/-- **C151**: all names of glyphs are read, in the order of the pool. -/
theorem C151_glyphs (e : Endian) (fs : List Nat) (hf : PcfFormat e fs) (xs : List (Bytes × Bytes)) (g : ∀ x ∈ xs, ∀ c ∈ x.2, c ≠ 0)
    (os : List Nat) (hp : os.Perm ((glyphPooled 0 xs).map (·.key))) (hn : os.length < 2 ^ 32) (hs : ∀ o ∈ os, o < 2 ^ 32)
    (total : Nat) (ht : total < 2 ^ 32) :
    Reads Pcf.glyphs (xs.map (·.2)) (pcfGlyphs e fs os total (poolBytes (glyphPooled 0 xs))) := by
  have he : e ≠ .middle := by rcases hf.2 with ⟨rfl, _⟩ | ⟨rfl, _⟩ <;> decide
  refine Reads.bind (reads_packed_le 4 _ _ (by decide) rfl hf.1) ?_
  rw [pcf_endian e fs hf]
  refine Reads.bind (reads_number e he 4 _ (by decide) hn) ?_
  refine Reads.bind (reads_times (Rd.int 4 e) _ os fun o ho => reads_number e he 4 _ (by decide) (hs o ho)) ?_
  refine Reads.bind (reads_number e he 4 _ (by decide) ht) ?_
  have := reads_pooled (fun _ => Pcf.cstring) (fun n => n) os (glyphPooled 0 xs) (glyph_places xs 0) (reads_glyph_items xs 0 g) hp
  rw [glyph_vals] at this
  exact this

/-- Two glyphs whose names are the same text of the pool: the second name cannot be read. -/
theorem C151_shared (data : Bytes) (s : InputStream) (hs : stringInputStream data = .ok s) (base o : Nat) (b : Bytes) (hb : ∀ c ∈ b, c ≠ 0)
    (h : b ++ [0] <+: data.drop (base + o)) (hl : base + o ≤ data.length) :
    Rd.each (Pcf.glyph base) [o, o] s (8 * data.length) (8 * base) = .error .parser := by
  have h1 := h.length_le
  rw [List.length_drop] at h1
  have r := reads_pcf_cstring b hb data s hs (base + o) (8 * data.length) h (by omega)
  have g1 : Pcf.glyph base o s (8 * data.length) (8 * base) = .ok (b, 8 * (base + o + (b ++ [0]).length)) := by
    show Rd.bind (Rd.seek (base + o)) (fun _ => Pcf.cstring) s _ _ = _
    rw [Rd.bind, Rd.seek, if_neg (by omega)]
    exact r
  have g2 : Pcf.glyph base o s (8 * data.length) (8 * (base + o + (b ++ [0]).length)) = .error .parser := by
    show Rd.bind (Rd.seek (base + o)) (fun _ => Pcf.cstring) s _ _ = _
    have : (b ++ [0]).length = b.length + 1 := by simp
    rw [Rd.bind, Rd.seek, if_pos (by omega)]
  rw [Rd.each, Rd.bind, g1]
  simp only []
  rw [Rd.bind, Rd.each, Rd.bind, g2]

/-! ## Whole fonts -/

/-- The table of an entry, as X11 lays it out. -/
inductive PcfTable (data : Bytes) (x : Pcf.Entry) : Pcf.Table → Prop
  | properties (e : Endian) (fs : List Nat) (hf : PcfFormat e fs) (xs : List PcfText) (g : ∀ x ∈ xs, PcfTextGood x)
      (ps : List Pcf.Property) (hp : ps.Perm ((pcfPooled 0 xs).map (·.key))) (hn : ps.length < 2 ^ 32)
      (hs : ∀ p ∈ ps, p.name < 2 ^ 32 ∧ p.isString < 256 ∧ p.value < 2 ^ 32) (pad : Bytes) (hpad : (ps.length + pad.length) % 4 = 0) (hpad4 : pad.length < 4)
      (total : Nat) (ht : total < 2 ^ 32) (type : x.type = 1)
      (at' : pcfProperties e fs ps pad total (poolBytes (pcfPooled 0 xs)) <+: data.drop x.offset)
      (room : (pcfProperties e fs ps pad total (poolBytes (pcfPooled 0 xs))).length ≤ x.size) :
      PcfTable data x (.properties ((pcfPooled 0 xs).map (·.val)))
  | glyphs (e : Endian) (fs : List Nat) (hf : PcfFormat e fs) (xs : List (Bytes × Bytes)) (g : ∀ x ∈ xs, ∀ c ∈ x.2, c ≠ 0)
      (os : List Nat) (hp : os.Perm ((glyphPooled 0 xs).map (·.key))) (hn : os.length < 2 ^ 32) (hs : ∀ o ∈ os, o < 2 ^ 32)
      (total : Nat) (ht : total < 2 ^ 32) (type : x.type = 128)
      (at' : pcfGlyphs e fs os total (poolBytes (glyphPooled 0 xs)) <+: data.drop x.offset)
      (room : (pcfGlyphs e fs os total (poolBytes (glyphPooled 0 xs))).length ≤ x.size) :
      PcfTable data x (.glyphs (xs.map (·.2)))
  | data (h1 : x.type ≠ 1) (h2 : x.type ≠ 128) : PcfTable data x (.data ((data.drop x.offset).take x.size))

def pcfEntry (x : Pcf.Entry) : Bytes := leBytes 4 x.type ++ (leBytes 4 x.format ++ (leBytes 4 x.size ++ leBytes 4 x.offset))

def PcfEntryGood (x : Pcf.Entry) : Prop := x.type < 2 ^ 32 ∧ x.format < 2 ^ 32 ∧ x.size < 2 ^ 32 ∧ x.offset < 2 ^ 32

def pcfStart (es : List Pcf.Entry) : Bytes := [1, 0x66, 0x63, 0x70] ++ (leBytes 4 es.length ++ es.flatMap pcfEntry)

theorem reads_pcf_entry (x : Pcf.Entry) (h : PcfEntryGood x) : Reads Pcf.entry x (pcfEntry x) := by
  obtain ⟨h1, h2, h3, h4⟩ := h
  refine Reads.bind (reads_int_le 4 _ (by omega) (by norm_num; omega)) ?_
  refine Reads.bind (reads_int_le 4 _ (by omega) (by norm_num; omega)) ?_
  refine Reads.bind (reads_int_le 4 _ (by omega) (by norm_num; omega)) ?_
  exact Reads.map (f := fun v => Pcf.Entry.mk x.type x.format x.size v) (reads_int_le 4 _ (by omega) (by norm_num; omega))

theorem at_pcf_content (data : Bytes) (x : Pcf.Entry) (t : Pcf.Table) (hx : 0 < x.size) (hin : x.offset + x.size ≤ data.length) (h : PcfTable data x t) :
    AtPlace data (Pcf.content x.type x.size) t x.offset (x.offset + x.size) := by
  rw [Pcf.content, if_neg (by omega)]
  cases h with
  | properties e fs hf xs g ps hp hn hs pad hpad hpad4 total ht type at' room =>
    rw [if_pos type]
    exact AtPlace.map (f := Pcf.Table.properties) ((C151_properties_partial e fs hf xs g ps hp hn hs pad hpad hpad4 total ht).within_at at' room)
  | glyphs e fs hf xs g os hp hn hs total ht type at' room =>
    rw [if_neg (by omega), if_pos type]
    exact AtPlace.map (f := Pcf.Table.glyphs) ((C151_glyphs e fs hf xs g os hp hn hs total ht).within_at at' room)
  | data h1 h2 =>
    rw [if_neg h1, if_neg h2]
    have hlen : ((data.drop x.offset).take x.size).length = x.size := by
      rw [List.length_take, List.length_drop]; omega
    have := (reads_raw_n x.size ((data.drop x.offset).take x.size) hlen (by omega)).at (data := data) (a := x.offset) (List.take_prefix _ _) (by omega)
    rw [hlen] at this
    exact AtPlace.map (f := Pcf.Table.data) this

theorem at_pcf_body (data : Bytes) (x : Pcf.Entry) (t : Pcf.Table) (hx : 0 < x.size) (hin : x.offset + x.size ≤ data.length) (h : PcfTable data x t) :
    AtPlace data (Pcf.body x) (x, t) x.offset (x.offset + x.size) := by
  have hr : AtPlace data (Pcf.room x.size) x.size x.offset x.offset := fun s hs => by
    rw [Pcf.room, Nat.min_eq_left (by omega)]
  exact AtPlace.bind hr (AtPlace.map (f := fun t => (x, t)) (at_pcf_content data x t hx hin h))

/-- **C151**: all tables of a font are found, whatever their order and the bytes between them.  (Missing: texts that do not follow the name of
their property, names that are used twice.) -/
theorem C151_file_partial (data : Bytes) (s : InputStream) (hs : stringInputStream data = .ok s) (es : List Pcf.Entry) (hn : es.length < 2 ^ 32)
    (hg : ∀ x ∈ es, PcfEntryGood x) (hstart : pcfStart es <+: data) (tables : Pcf.Entry → Pcf.Table)
    (ht : ∀ x ∈ es, 0 < x.size ∧ (pcfStart es).length ≤ x.offset ∧ x.offset + x.size ≤ data.length ∧ PcfTable data x (tables x))
    (hd : es.Pairwise fun x y => x.offset + x.size ≤ y.offset ∨ y.offset + y.size ≤ x.offset) :
    ∃ found stop, Pcf.file s (8 * data.length) 0 = .ok (([1, 0x66, 0x63, 0x70], es, found), stop) ∧ found.Perm (es.map fun x => (x, tables x)) ∧
      found.Pairwise (fun x y => x.1.offset ≤ y.1.offset) ∧ Pcf.valid [1, 0x66, 0x63, 0x70] = true := by
  set l := es.mergeSort (fun a b => decide (a.offset ≤ b.offset)) with hl
  have hperm : l.Perm es := List.mergeSort_perm _ _
  have hsort : l.Pairwise fun f g => f.offset ≤ g.offset := by
    have := List.pairwise_mergeSort (le := fun f g : Pcf.Entry => decide (f.offset ≤ g.offset)) (by intro a b c h1 h2; simp at *; omega)
      (by intro a b; simp; omega) es
    simpa using this
  have hdis : l.Pairwise fun f g => f.offset + f.size ≤ g.offset ∨ g.offset + g.size ≤ f.offset :=
    (List.Perm.pairwise_iff (R := fun f g : Pcf.Entry => f.offset + f.size ≤ g.offset ∨ g.offset + g.size ≤ f.offset) (fun {a b} h => h.symm) hperm).2 hd
  obtain ⟨b, hb⟩ := at_sorted data Pcf.body (·.offset) (·.size) (fun x => (x, tables x)) l (pcfStart es).length hsort hdis fun x hx => by
    obtain ⟨h1, h2, h3, h4⟩ := ht x (hperm.mem_iff.1 hx)
    exact ⟨h2, h1, at_pcf_body data x _ h1 h3 h4⟩
  have hh : Reads Pcf.start ([1, 0x66, 0x63, 0x70], es) (pcfStart es) := by
    refine Reads.bind (reads_raw_n 4 _ rfl (by omega)) ?_
    refine Reads.bind (reads_int_le 4 es.length (by omega) (by norm_num; omega)) ?_
    exact Reads.map (f := fun v => ([1, 0x66, 0x63, 0x70], v)) (reads_times Pcf.entry pcfEntry es fun x hx => reads_pcf_entry x (hg x hx))
  have h0 := hh.at (data := data) (a := 0) (by simpa using hstart) (by omega)
  rw [Nat.zero_add] at h0
  have hf : AtPlace data Pcf.file ([1, 0x66, 0x63, 0x70], es, l.map fun x => (x, tables x)) 0 b :=
    AtPlace.bind h0 (AtPlace.map (f := fun v => ([1, 0x66, 0x63, 0x70], es, v)) hb)
  refine ⟨_, _, hf s hs, hperm.map _, ?_, by decide⟩
  rw [List.pairwise_map]
  exact hsort

/-- Two properties, the first in the table being the second in the pool: `A` with the text `x`, `B` with the number 7. -/
def pcfSample : List PcfText := [⟨[], [65], some [120], 1, 0⟩, ⟨[], [66], none, 0, 7⟩]

example : (pcfPooled 0 pcfSample).map (·.key) = [⟨0, 1, 2⟩, ⟨4, 0, 7⟩] := by decide +kernel

example : [(⟨4, 0, 7⟩ : Pcf.Property), ⟨0, 1, 2⟩].Perm ((pcfPooled 0 pcfSample).map (·.key)) := List.Perm.swap _ _ _

example : ∀ x ∈ pcfSample, PcfTextGood x := by
  intro x hx
  simp only [pcfSample, List.mem_cons, List.not_mem_nil, or_false] at hx
  rcases hx with rfl | rfl
  · exact ⟨by decide, by decide, by decide, by decide, by decide⟩
  · exact ⟨by decide, by decide, by decide, by decide, by decide⟩

example : PcfFormat .big [0, 1, 1, 0, 0] := ⟨by simp [Fit], .inl ⟨rfl, by decide⟩⟩

/-- A font with one table of an unknown type. -/
example : ∃ data : Bytes, pcfStart [⟨2, 0, 1, 24⟩] <+: data ∧ (pcfStart [⟨2, 0, 1, 24⟩]).length ≤ 24 ∧ 24 + 1 ≤ data.length ∧
    PcfTable data ⟨2, 0, 1, 24⟩ (.data ((data.drop 24).take 1)) :=
  ⟨pcfStart [⟨2, 0, 1, 24⟩] ++ [5], List.prefix_append _ _, by decide +kernel, by decide +kernel, .data (by decide) (by decide)⟩

end Hachoir.Props

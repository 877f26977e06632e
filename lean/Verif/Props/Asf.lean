import Verif.Formats.Asf
import Verif.Props.Addresses
import Verif.Props.Arj
import Verif.Props.Packed
import Verif.Props.Tcpdump

/-!
# C152: Windows Media files
-/

namespace Hachoir.Props
open Hachoir Hachoir.Human Hachoir.Stream Hachoir.Field Hachoir.Formats Spec

/-! ## Readers -/

theorem reads_guid (g : Bytes) (hg : g.length = 16) : Reads Asf.guid (guidText g) g := by
  intro data s hs k stop hp _
  rw [Asf.guid, C84_text data s hs k g hg hp]
  simp only [Except.ok.injEq, Prod.mk.injEq, true_and]
  omega

/-- Numbers that fit in their sizes, and their bytes. -/
def NumsFit : List Nat → List Nat → Prop
  | [], [] => True
  | w :: ws, v :: vs => 0 < w ∧ v < 256 ^ w ∧ NumsFit ws vs
  | _, _ => False

def numsBytes : List Nat → List Nat → Bytes
  | w :: ws, v :: vs => leBytes w v ++ numsBytes ws vs
  | _, _ => []

theorem reads_numbers : ∀ (ws vs : List Nat), NumsFit ws vs → Reads (Asf.numbers ws) vs (numsBytes ws vs)
  | [], [], _ => reads_rpure _
  | w :: ws, v :: vs, ⟨h1, h2, h3⟩ =>
    Reads.rbind (reads_int_le w v h1 h2) (Reads.rmap (f := fun as => v :: as) (reads_numbers ws vs h3))

theorem reads_utf16_or (b : Bytes) (n : Nat) (hn : n = b.length) (hb : b.length ≤ 65535) : Reads (Asf.utf16Or n) b b := by
  rw [Asf.utf16Or]
  by_cases h : n = 0
  · rw [if_pos h]
    have : b = [] := List.eq_nil_of_length_eq_zero (by omega)
    subst this
    exact reads_pure _
  · rw [if_neg h]
    exact reads_fixed .little .utf16le (by decide) n b hn.symm (by omega)

theorem reads_pascal16_le (charset : Charset) (hc : charset ≠ .unknown ∧ charset ≠ .utf16bom ∧ charset ≠ .utf32bom) (b : Bytes) (hb : b.length < 65536) :
    Reads (Rd.text .little .pascal16 charset none) b (leBytes 2 b.length ++ b) := by
  intro data s hs k stop hp hst
  obtain ⟨t, ht⟩ := hp
  obtain ⟨r1, r2⟩ := C50_pascal_partial hs .little (by decide) k .pascal16 2 rfl (leBytes 2 b.length) b t (leBytes_length 2 _) (by rw [← ht, List.append_assoc])
    ((leBytes_spec 2 b.length).2 (by omega)) charset hc
  rw [Rd.text, r1]
  simp only []
  rw [r2]
  simp only [List.length_append, leBytes_length, Except.ok.injEq, Prod.mk.injEq, true_and]
  omega

/-- A field set of told size, whose fields need not fill it. -/
theorem Reads.within_extra {α : Type} {r : Rd α} {v : α} {bs : Bytes} (h : Reads r v bs) (extra : Bytes) (n : Nat) (hn : n = (bs ++ extra).length) :
    Reads (Rd.within n r) v (bs ++ extra) := by
  subst hn
  intro data s hs k stop hp _
  rw [Rd.within, h data s hs k (8 * k + 8 * (bs ++ extra).length) (prefix_left hp) (by rw [List.length_append]; omega)]
  exact congrArg (fun n => Except.ok (v, n)) (by omega)

theorem reads_asf_rest (b : Bytes) (h : b ≠ []) : ReadsAll Asf.rest b b := by
  intro data s hs k hp
  rw [Asf.rest, show (8 * (k + b.length) - 8 * k) / 8 = b.length by omega]
  exact reads_raw b h data s hs k _ hp (by omega)

theorem reads_while_map {α γ : Type} (r : Rd α) (val : γ → α) (enc : γ → Bytes) : ∀ (vs : List γ) (n : Nat), vs.length < n →
    (∀ v ∈ vs, Reads r (val v) (enc v) ∧ enc v ≠ []) → ReadsAll (Rd.whileNotEof r n) (vs.map val) (vs.flatMap enc)
  | [], n + 1, _, _ => ReadsAll.at_eof (Reads.all (reads_rpure _))
  | v :: vs, n + 1, hn, h => by
    have ih := reads_while_map r val enc vs n (by simpa using hn) fun x hx => h x (by simp [hx])
    obtain ⟨h1, h2⟩ := h v (by simp)
    rw [List.flatMap_cons]
    refine ReadsAll.not_eof (by simp [h2]) ?_
    refine Reads.bind_all h1 ?_
    exact ReadsAll.map ih (fun as => val v :: as)

/-! ## The types of objects -/

/-- The identifiers of the specification of the format, as they are in files. -/
def asfGuids : List (Bytes × Asf.Kind) := [
  ([0x30, 0x26, 0xB2, 0x75, 0x8E, 0x66, 0xCF, 0x11, 0xA6, 0xD9, 0x00, 0xAA, 0x00, 0x62, 0xCE, 0x6C], .header),
  ([0xA1, 0xDC, 0xAB, 0x8C, 0x47, 0xA9, 0xCF, 0x11, 0x8E, 0xE4, 0x00, 0xC0, 0x0C, 0x20, 0x53, 0x65], .fileProp),
  ([0xB5, 0x03, 0xBF, 0x5F, 0x2E, 0xA9, 0xCF, 0x11, 0x8E, 0xE3, 0x00, 0xC0, 0x0C, 0x20, 0x53, 0x65], .headerExt),
  ([0x40, 0x52, 0xD1, 0x86, 0x1D, 0x31, 0xD0, 0x11, 0xA3, 0xA4, 0x00, 0xA0, 0xC9, 0x03, 0x48, 0xF6], .codecList),
  ([0x90, 0x08, 0x00, 0x33, 0xB1, 0xE5, 0xCF, 0x11, 0x89, 0xF4, 0x00, 0xA0, 0xC9, 0x03, 0x49, 0xCB], .simpleIndex),
  ([0x36, 0x26, 0xB2, 0x75, 0x8E, 0x66, 0xCF, 0x11, 0xA6, 0xD9, 0x00, 0xAA, 0x00, 0x62, 0xCE, 0x6C], .data),
  ([0x91, 0x07, 0xDC, 0xB7, 0xB7, 0xA9, 0xCF, 0x11, 0x8E, 0xE6, 0x00, 0xC0, 0x0C, 0x20, 0x53, 0x65], .streamProp),
  ([0xCE, 0x75, 0xF8, 0x7B, 0x8D, 0x46, 0xD1, 0x11, 0x8D, 0x82, 0x00, 0x60, 0x97, 0xC9, 0xA2, 0xB2], .bitRates),
  ([0x40, 0xA4, 0xD0, 0xD2, 0x07, 0xE3, 0xD2, 0x11, 0x97, 0xF0, 0x00, 0xA0, 0xC9, 0x5E, 0xA8, 0x50], .extDesc),
  ([0x33, 0x26, 0xB2, 0x75, 0x8E, 0x66, 0xCF, 0x11, 0xA6, 0xD9, 0x00, 0xAA, 0x00, 0x62, 0xCE, 0x6C], .metadata),
  ([0xC0, 0xEF, 0x19, 0xBC, 0x4D, 0x5B, 0xCF, 0x11, 0xA8, 0xFD, 0x00, 0x80, 0x5F, 0x5C, 0x44, 0x2B], .video),
  ([0x40, 0x9E, 0x69, 0xF8, 0x4D, 0x5B, 0xCF, 0x11, 0xA8, 0xFD, 0x00, 0x80, 0x5F, 0x5C, 0x44, 0x2B], .audio),
  ([0xDC, 0x29, 0xE2, 0xD6, 0xDA, 0x35, 0xD1, 0x11, 0x90, 0x34, 0x00, 0xA0, 0xC9, 0x03, 0x49, 0xBE], .mutex)]

def asfKind (g : Bytes) : Option Asf.Kind := asfGuids.lookup g

theorem asf_tags : Asf.tags = asfGuids.map fun x => (guidText x.1, x.2) := by decide +kernel

theorem asf_guids_16 : ∀ x ∈ asfGuids, x.1.length = 16 := by decide +kernel

theorem find_lookup : ∀ (l : List (Bytes × Asf.Kind)) (g : Bytes), g.length = 16 → (∀ x ∈ l, x.1.length = 16) →
    ((l.map fun x => (guidText x.1, x.2)).find? fun t => t.1 == guidText g).map (·.2) = l.lookup g
  | [], _, _, _ => rfl
  | (a, k) :: l, g, hg, hl => by
    rw [List.map_cons, List.find?_cons, List.lookup_cons]
    by_cases h : g = a
    · subst h
      simp
    · have h1 : (guidText a == guidText g) = false := by
        rw [beq_eq_false_iff_ne]
        exact fun he => h (C84_injective a g (hl (a, k) (by simp)) hg he).symm
      have h2 : (g == a) = false := by rw [beq_eq_false_iff_ne]; exact h
      simp only [h1, h2]
      exact find_lookup l g hg fun x hx => hl x (by simp [hx])

/-- **C152**: the type of an object is told by its identifier, and by nothing else. -/
theorem C152_kind (g : Bytes) (hg : g.length = 16) : Asf.kindOf (guidText g) = asfKind g := by
  rw [Asf.kindOf, asf_tags, asfKind]
  exact find_lookup asfGuids g hg asf_guids_16

/-! ## Contents -/

/-- A value of the extended description: how it is written. -/
inductive AsfValue : Nat → Nat → Asf.Val → Bytes → Prop
  | text (b : Bytes) (h : b ≠ []) (he : b.length % 2 = 0) : AsfValue 0 b.length (.text b) b
  | bool (n size : Nat) (h : n < 2 ^ 32) : AsfValue 2 size (.number n) (leBytes 4 n)
  | dword (n size : Nat) (h : n < 2 ^ 32) : AsfValue 3 size (.number n) (leBytes 4 n)
  | qword (n size : Nat) (h : n < 2 ^ 64) : AsfValue 4 size (.number n) (leBytes 8 n)
  | other (t : Nat) (b : Bytes) (h : b ≠ []) (ht : t = 1 ∨ 5 ≤ t) : AsfValue t b.length (.bytes b) b

theorem reads_asf_value {t n : Nat} {v : Asf.Val} {b : Bytes} (h : AsfValue t n v b) (hn : n < 65536) : Reads (Asf.descValue t n) v b := by
  rw [Asf.descValue]
  cases h with
  | text _ h he =>
    rw [if_pos ⟨rfl, he⟩]
    exact Reads.map (f := Asf.Val.text) (reads_fixed .little .utf16le (by decide) _ b rfl ⟨List.length_pos_iff.2 h, by omega⟩)
  | bool m _ h =>
    rw [if_neg (by simp), if_pos (by simp)]
    exact Reads.map (f := Asf.Val.number) (reads_int_le 4 m (by omega) (by norm_num; omega))
  | dword m _ h =>
    rw [if_neg (by simp), if_pos (by simp)]
    exact Reads.map (f := Asf.Val.number) (reads_int_le 4 m (by omega) (by norm_num; omega))
  | qword m _ h =>
    rw [if_neg (by simp), if_neg (by simp), if_pos rfl]
    exact Reads.map (f := Asf.Val.number) (reads_int_le 8 m (by omega) (by norm_num; omega))
  | other t _ h ht =>
    rw [if_neg (by omega), if_neg (by omega), if_neg (by omega)]
    exact Reads.map (f := Asf.Val.bytes) (reads_raw b h)

/-- A descriptor with the bytes of its value. -/
structure AsfDesc where
  name : Bytes
  type : Nat
  size : Nat
  value : Asf.Val
  bytes : Bytes

def AsfDesc.Good (d : AsfDesc) : Prop := d.name.length < 65536 ∧ d.type < 65536 ∧ d.size < 65536 ∧ AsfValue d.type d.size d.value d.bytes

def AsfDesc.enc (d : AsfDesc) : Bytes := leBytes 2 d.name.length ++ d.name ++ (leBytes 2 d.type ++ (leBytes 2 d.size ++ d.bytes))

theorem reads_asf_desc (d : AsfDesc) (h : d.Good) : Reads Asf.desc ⟨d.name, d.type, d.size, d.value⟩ d.enc := by
  obtain ⟨h1, h2, h3, h4⟩ := h
  refine Reads.bind (reads_pascal16_le .utf16le (by decide) d.name h1) ?_
  refine Reads.bind (reads_int_le 2 _ (by omega) (by norm_num; omega)) ?_
  refine Reads.bind (reads_int_le 2 _ (by omega) (by norm_num; omega)) ?_
  exact Reads.map (f := fun v => Asf.Desc.mk d.name d.type d.size v) (reads_asf_value h4 h3)

def CodecGood (c : Asf.Codec) : Prop :=
  c.type < 65536 ∧ c.name.length % 2 = 0 ∧ c.name.length < 65536 ∧ c.desc.length % 2 = 0 ∧ c.desc.length < 65536 ∧ c.info.length < 65536

/-- The lengths of name and description are those in characters. -/
def codecBytes (c : Asf.Codec) : Bytes :=
  leBytes 2 c.type ++ (leBytes 2 (c.name.length / 2) ++ (c.name ++ (leBytes 2 (c.desc.length / 2) ++ (c.desc ++ (leBytes 2 c.info.length ++ c.info)))))

theorem reads_asf_codec (c : Asf.Codec) (h : CodecGood c) : Reads Asf.codec c (codecBytes c) := by
  obtain ⟨h1, h2, h3, h4, h5, h6⟩ := h
  refine Reads.bind (reads_int_le 2 _ (by omega) (by norm_num; omega)) ?_
  refine Reads.bind (reads_int_le 2 _ (by omega) (by norm_num; omega)) ?_
  refine Reads.bind (reads_utf16_or c.name _ (by omega) (by omega)) ?_
  refine Reads.bind (reads_int_le 2 _ (by omega) (by norm_num; omega)) ?_
  refine Reads.bind (reads_utf16_or c.desc _ (by omega) (by omega)) ?_
  refine Reads.bind (reads_int_le 2 _ (by omega) (by norm_num; omega)) ?_
  exact Reads.map (f := fun v => Asf.Codec.mk c.type c.name c.desc v) (reads_raw_or c.info _ rfl)

/-- The number of the stream is in the lower seven bits. -/
def rateBytes (r : Asf.Rate) : Bytes := leBytes 2 (r.stream + 128 * r.reserved) ++ leBytes 4 r.rate

def RateGood (r : Asf.Rate) : Prop := r.stream < 128 ∧ r.reserved < 512 ∧ r.rate < 2 ^ 32

theorem reads_asf_rate (r : Asf.Rate) (h : RateGood r) : Reads Asf.bitRate r (rateBytes r) := by
  obtain ⟨h1, h2, h3⟩ := h
  have hp := reads_packed_le 2 [7, 9] [r.stream, r.reserved] (by decide) rfl (by simp [Fit]; omega)
  have hj : joinLE [7, 9] [r.stream, r.reserved] = r.stream + 128 * r.reserved := by simp [joinLE]; omega
  rw [hj] at hp
  refine Reads.bind hp ?_
  exact Reads.map (f := fun v => Asf.Rate.mk r.stream r.reserved v) (reads_int_le 4 _ (by omega) (by norm_num; omega))

/-- How contents without objects are written. -/
inductive AsfLeaf : Asf.Kind → Asf.Leaf → Bytes → Prop
  | audio (ns : List Nat) (h : NumsFit [2, 2, 4, 4, 2, 2] ns) (b : Bytes) (hb : b.length < 65536) :
    AsfLeaf .audio (.audio ns b) (numsBytes [2, 2, 4, 4, 2, 2] ns ++ (leBytes 2 b.length ++ b))
  | mutex (g : Bytes) (hg : g.length = 16) (ns : List Nat) (hn : ns.length < 65536) (h : ∀ n ∈ ns, n < 65536) :
    AsfLeaf .mutex (.mutex (guidText g) ns) (g ++ (leBytes 2 ns.length ++ ns.flatMap (leBytes 2)))
  | video (w h : Nat) (hw : w < 2 ^ 32) (hh : h < 2 ^ 32) (res : Bytes) (hr : res.length = 1) (size : Nat) (hs : 40 ≤ size ∧ size < 65536)
      (as : List Nat) (ha : NumsFit [4, 4, 4, 2, 2] as) (codec : Bytes) (hc : codec.length = 4) (bs : List Nat) (hb : NumsFit [4, 4, 4, 4, 4] bs) :
    AsfLeaf .video (.video w h res size as codec bs)
      (leBytes 4 w ++ (leBytes 4 h ++ (res ++ (leBytes 2 size ++ (numsBytes [4, 4, 4, 2, 2] as ++ (codec ++ numsBytes [4, 4, 4, 4, 4] bs))))))
  | fileProp (g : Bytes) (hg : g.length = 16) (ns : List Nat) (hn : NumsFit [8, 8, 8, 8, 8, 8] ns) (fs : List Nat) (hf : Fit [1, 1, 30] fs)
      (ms : List Nat) (hm : NumsFit [4, 4, 4] ms) :
    AsfLeaf .fileProp (.fileProp (guidText g) ns fs ms)
      (g ++ (numsBytes [8, 8, 8, 8, 8, 8] ns ++ (leBytes 4 (joinLE [1, 1, 30] fs) ++ numsBytes [4, 4, 4] ms)))
  | headerExt (g : Bytes) (hg : g.length = 16) (n : Nat) (hn : n < 65536) (b : Bytes) (hb : b.length < 2 ^ 32) :
    AsfLeaf .headerExt (.headerExt (guidText g) n b) (g ++ (leBytes 2 n ++ (leBytes 4 b.length ++ b)))
  | metadata (ts : List Bytes) (h5 : ts.length = 5) (h : ∀ t ∈ ts, t.length < 65536) :
    AsfLeaf .metadata (.metadata ts) (ts.flatMap (fun t => leBytes 2 t.length) ++ ts.flatten)
  | extDesc (ds : List AsfDesc) (hn : ds.length < 65536) (h : ∀ d ∈ ds, d.Good) :
    AsfLeaf .extDesc (.extDesc (ds.map fun d => ⟨d.name, d.type, d.size, d.value⟩)) (leBytes 2 ds.length ++ ds.flatMap AsfDesc.enc)
  | codecList (g : Bytes) (hg : g.length = 16) (cs : List Asf.Codec) (hn : cs.length < 2 ^ 32) (h : ∀ c ∈ cs, CodecGood c) :
    AsfLeaf .codecList (.codecList (guidText g) cs) (g ++ (leBytes 4 cs.length ++ cs.flatMap codecBytes))
  | simpleIndex (g : Bytes) (hg : g.length = 16) (i m : Nat) (hi : i < 2 ^ 64) (hm : m < 2 ^ 32) (es : List (List Nat)) (hn : es.length < 2 ^ 32)
      (h : ∀ e ∈ es, NumsFit [4, 2] e) :
    AsfLeaf .simpleIndex (.simpleIndex (guidText g) i m es) (g ++ (leBytes 8 i ++ (leBytes 4 m ++ (leBytes 4 es.length ++ es.flatMap (numsBytes [4, 2])))))
  | bitRates (rs : List Asf.Rate) (hn : rs.length < 65536) (h : ∀ r ∈ rs, RateGood r) :
    AsfLeaf .bitRates (.bitRates rs) (leBytes 2 rs.length ++ rs.flatMap rateBytes)
  | data (g : Bytes) (hg : g.length = 16) (n : Nat) (hn : n < 2 ^ 64) (res : Bytes) (hr : res.length = 2) (b : Bytes) (hb : b ≠ []) :
    AsfLeaf .data (.data (guidText g) n res b) (g ++ (leBytes 8 n ++ (res ++ b)))

theorem reads_asf_texts (ts : List Bytes) (h : ∀ t ∈ ts, t.length < 65536) : Reads (Rd.each Asf.utf16Or (ts.map (·.length))) ts ts.flatten := by
  have := reads_each Asf.utf16Or (fun t : Bytes => t.length) (fun t => t) (fun t => t) ts fun t ht => reads_utf16_or t _ rfl (by have := h t ht; omega)
  rw [List.map_id', show ts.flatMap (fun t => t) = ts.flatten from List.flatten_eq_flatMap.symm] at this
  exact this

/-- **C152**: contents without objects are read as they were written. -/
theorem C152_leaf {k : Asf.Kind} {l : Asf.Leaf} {bs : Bytes} (h : AsfLeaf k l bs) : ReadsAll (Asf.leafOf k) l bs := by
  cases h with
  | audio ns h b hb =>
    refine Reads.all (Reads.bind (reads_numbers _ ns h) (Reads.bind (reads_int_le 2 _ (by omega) (by norm_num; omega)) ?_))
    exact Reads.map (f := Asf.Leaf.audio ns) (reads_raw_or b _ rfl)
  | mutex g hg ns hn h =>
    refine Reads.all (Reads.bind (reads_guid g hg) (Reads.bind (reads_int_le 2 _ (by omega) (by norm_num; omega)) ?_))
    exact Reads.map (f := Asf.Leaf.mutex (guidText g)) (reads_times _ _ ns fun n hn => reads_int_le 2 _ (by omega) (by have := h n hn; norm_num; omega))
  | video w h hw hh res hr size hs as ha codec hc bs hb =>
    refine Reads.all (Reads.bind (reads_int_le 4 _ (by omega) (by norm_num; omega)) ?_)
    refine Reads.bind (reads_int_le 4 _ (by omega) (by norm_num; omega)) ?_
    refine Reads.bind (reads_raw_n 1 res hr (by omega)) ?_
    refine Reads.bind (reads_int_le 2 _ (by omega) (by norm_num; omega)) ?_
    rw [if_neg (by omega)]
    refine Reads.bind (reads_numbers _ as ha) ?_
    refine Reads.bind (reads_fixed .little .eightBit (by decide) 4 codec hc (by omega)) ?_
    exact Reads.map (f := Asf.Leaf.video w h res size as codec) (reads_numbers _ bs hb)
  | fileProp g hg ns hn fs hf ms hm =>
    refine Reads.all (Reads.bind (reads_guid g hg) (Reads.bind (reads_numbers _ ns hn) ?_))
    refine Reads.bind (reads_packed_le 4 _ fs (by decide) rfl hf) ?_
    exact Reads.map (f := Asf.Leaf.fileProp (guidText g) ns fs) (reads_numbers _ ms hm)
  | headerExt g hg n hn b hb =>
    refine Reads.all (Reads.bind (reads_guid g hg) (Reads.bind (reads_int_le 2 _ (by omega) (by norm_num; omega)) ?_))
    refine Reads.bind (reads_int_le 4 _ (by omega) (by norm_num; omega)) ?_
    exact Reads.map (f := Asf.Leaf.headerExt (guidText g) n) (reads_raw_or b _ rfl)
  | metadata ts h5 h =>
    match ts, h5 with
    | [a, b, c, d, e], _ =>
      have ha := h a (by simp)
      have hb := h b (by simp)
      have hc := h c (by simp)
      have hd := h d (by simp)
      have he := h e (by simp)
      have hn : NumsFit [2, 2, 2, 2, 2] ([a, b, c, d, e].map (·.length)) := by
        simp only [List.map_cons, List.map_nil, NumsFit]
        norm_num
        omega
      refine Reads.all (Reads.of_eq (Reads.bind (reads_numbers _ _ hn) (Reads.map (f := Asf.Leaf.metadata) (reads_asf_texts _ h))) rfl ?_)
      simp [numsBytes]
  | extDesc ds hn h =>
    refine Reads.all (Reads.bind (reads_int_le 2 _ (by omega) (by norm_num; omega)) ?_)
    exact Reads.map (f := Asf.Leaf.extDesc) (reads_times_map Asf.desc _ _ ds fun d hd => reads_asf_desc d (h d hd))
  | codecList g hg cs hn h =>
    refine Reads.all (Reads.bind (reads_guid g hg) (Reads.bind (reads_int_le 4 _ (by omega) (by norm_num; omega)) ?_))
    exact Reads.map (f := Asf.Leaf.codecList (guidText g)) (reads_times Asf.codec _ cs fun c hc => reads_asf_codec c (h c hc))
  | simpleIndex g hg i m hi hm es hn h =>
    refine Reads.all (Reads.bind (reads_guid g hg) (Reads.bind (reads_int_le 8 _ (by omega) (by norm_num; omega)) ?_))
    refine Reads.bind (reads_int_le 4 _ (by omega) (by norm_num; omega)) ?_
    refine Reads.bind (reads_int_le 4 _ (by omega) (by norm_num; omega)) ?_
    exact Reads.map (f := Asf.Leaf.simpleIndex (guidText g) i m) (reads_times _ _ es fun e he => reads_numbers _ e (h e he))
  | bitRates rs hn h =>
    refine Reads.all (Reads.bind (reads_int_le 2 _ (by omega) (by norm_num; omega)) ?_)
    exact Reads.map (f := Asf.Leaf.bitRates) (reads_times _ _ rs fun r hr => reads_asf_rate r (h r hr))
  | data g hg n hn res hr b hb =>
    refine Reads.bind_all (reads_guid g hg) ?_
    refine Reads.bind_all (reads_int_le 8 _ (by omega) (by norm_num; omega)) ?_
    refine Reads.bind_all (reads_raw_n 2 res hr (by omega)) ?_
    exact ReadsAll.map (reads_asf_rest b hb) (Asf.Leaf.data (guidText g) n res)

/-! ## Objects -/

/-- An object: its identifier, what is read of its content, the bytes of its content. -/
structure AsfObject where
  guid : Bytes
  content : Asf.Node
  bytes : Bytes

/-- The size of an object is that of the whole. -/
def AsfObject.enc (o : AsfObject) : Bytes := o.guid ++ (leBytes 8 (24 + o.bytes.length) ++ o.bytes)

def AsfObject.node (o : AsfObject) : Asf.Node := .object (guidText o.guid) (24 + o.bytes.length) o.content

def AsfObject.Sized (o : AsfObject) : Prop := o.guid.length = 16 ∧ 24 + o.bytes.length < 2 ^ 64

/-- How contents are written; objects are inside of each other up to the depth `n`. -/
inductive AsfContent : Nat → Option Asf.Kind → Asf.Node → Bytes → Prop
  | empty (n : Nat) (k : Option Asf.Kind) : AsfContent n k .empty []
  | raw (n : Nat) (b : Bytes) (h : b ≠ []) : AsfContent n none (.raw b) b
  | leaf (n : Nat) (k : Asf.Kind) (l : Asf.Leaf) (bs : Bytes) (h : AsfLeaf k l bs) : AsfContent (n + 1) (some k) (.leaf l) bs
  | format (n : Nat) (l : Asf.Leaf) (bs extra : Bytes) (h : AsfLeaf .video l bs) : AsfContent (n + 1) (some .video) (.leaf l) (bs ++ extra)
  | header (n : Nat) (res : Bytes) (hr : res.length = 2) (os : List AsfObject) (hn : os.length < 2 ^ 32) (hs : ∀ o ∈ os, o.Sized)
      (h : ∀ o ∈ os, AsfContent n (asfKind o.guid) o.content o.bytes) :
    AsfContent (n + 1) (some .header) (.header res (os.map AsfObject.node)) (leBytes 4 os.length ++ (res ++ os.flatMap AsfObject.enc))
  | stream (n : Nat) (t c : Bytes) (ht : t.length = 16) (hc : c.length = 16) (time : Nat) (htime : time < 2 ^ 64) (number reserved crypt : Nat)
      (hf : number < 128 ∧ reserved < 256 ∧ crypt < 2) (r : Nat) (hr : r < 2 ^ 32) (d : Asf.Node) (b : Bytes) (hb : b.length < 2 ^ 32)
      (h : AsfContent n (asfKind t) d b) (e : Bytes) (he : e.length < 2 ^ 32) :
    AsfContent (n + 1) (some .streamProp) (.stream ⟨guidText t, guidText c, [time, b.length, e.length], [number, reserved, crypt], r⟩ d e)
      (t ++ (c ++ (leBytes 8 time ++ (leBytes 4 b.length ++ (leBytes 4 e.length ++
        (leBytes 2 (number + 128 * reserved + 32768 * crypt) ++ (leBytes 4 r ++ (b ++ e))))))))

theorem reads_asf_object (r : Asf.Kind → Rd Asf.Node) (o : AsfObject) (ho : o.Sized)
    (h : Reads (Asf.contentOf r o.bytes.length (asfKind o.guid)) o.content o.bytes) : Reads (Asf.objectOf r) o.node o.enc := by
  obtain ⟨h1, h2⟩ := ho
  refine Reads.bind (reads_guid o.guid h1) ?_
  refine Reads.bind (reads_int_le 8 _ (by omega) (by norm_num; omega)) ?_
  rw [C152_kind o.guid h1, show 24 + o.bytes.length - 24 = o.bytes.length by omega]
  exact Reads.map (f := fun c => Asf.Node.object (guidText o.guid) (24 + o.bytes.length) c) h

theorem asf_leaf_ne {k : Asf.Kind} {l : Asf.Leaf} {bs : Bytes} (h : AsfLeaf k l bs) : bs ≠ [] ∧ k ≠ .header ∧ k ≠ .streamProp := by
  have l2 : ∀ v, leBytes 2 v ≠ [] := fun v h => by have := leBytes_length 2 v; rw [h] at this; simp at this
  have l4 : ∀ v, leBytes 4 v ≠ [] := fun v h => by have := leBytes_length 4 v; rw [h] at this; simp at this
  cases h with
  | metadata ts h5 h =>
    match ts, h5 with
    | a :: ts, _ => exact ⟨by simp [l2], by decide, by decide⟩
  | data g hg n hn res hr b hb => exact ⟨by simp [hb], by decide, by decide⟩
  | _ => exact ⟨by simp [l2, l4], by decide, by decide⟩

/-- **C152**: contents are read as they were written, and objects inside of objects with all of theirs. -/
theorem C152_content : ∀ (n : Nat) (k : Option Asf.Kind) (c : Asf.Node) (bs : Bytes), AsfContent n k c bs → Reads (Asf.contentOf (Asf.content n) bs.length k) c bs := by
  intro n
  induction n with
  | zero =>
    intro k c bs h
    cases h with
    | empty => exact reads_pure _
    | raw _ b h =>
      rw [Asf.contentOf, if_neg (by have := List.length_pos_iff.2 h; omega)]
      exact Reads.map (f := Asf.Node.raw) (reads_raw _ h)
  | succ n ih =>
    intro k c bs h
    cases h with
    | empty => exact reads_pure _
    | raw _ b h =>
      rw [Asf.contentOf, if_neg (by have := List.length_pos_iff.2 h; omega)]
      exact Reads.map (f := Asf.Node.raw) (reads_raw _ h)
    | leaf _ k l _ h =>
      obtain ⟨h1, h2, h3⟩ := asf_leaf_ne h
      rw [Asf.contentOf, if_neg (by have := List.length_pos_iff.2 h1; omega)]
      simp only [Asf.content]
      rw [if_neg h2, if_neg h3]
      exact ReadsAll.within (ReadsAll.map (C152_leaf h) Asf.Node.leaf) _ rfl
    | format _ l b extra h =>
      have h1 := (asf_leaf_ne h).1
      rw [Asf.contentOf, if_neg (by have := List.length_pos_iff.2 h1; rw [List.length_append]; omega)]
      simp only [Asf.content]
      rw [if_neg (by decide), if_neg (by decide)]
      refine Reads.within_extra ?_ extra _ rfl
      cases h with
      | video w h hw hh res hr size hs as ha codec hc bs hb =>
        refine Reads.map (f := Asf.Node.leaf) ?_
        refine Reads.bind (reads_int_le 4 _ (by omega) (by norm_num; omega)) ?_
        refine Reads.bind (reads_int_le 4 _ (by omega) (by norm_num; omega)) ?_
        refine Reads.bind (reads_raw_n 1 res hr (by omega)) ?_
        refine Reads.bind (reads_int_le 2 _ (by omega) (by norm_num; omega)) ?_
        rw [if_neg (by omega)]
        refine Reads.bind (reads_numbers _ as ha) ?_
        refine Reads.bind (reads_fixed .little .eightBit (by decide) 4 codec hc (by omega)) ?_
        exact Reads.map (f := Asf.Leaf.video w h res size as codec) (reads_numbers _ bs hb)
    | header _ res hr os hn hs h =>
      rw [Asf.contentOf, if_neg (by rw [List.length_append, leBytes_length]; omega)]
      simp only [Asf.content]
      rw [if_pos trivial]
      refine ReadsAll.within (Reads.all ?_) _ rfl
      refine Reads.bind (reads_int_le 4 _ (by omega) (by norm_num; omega)) ?_
      refine Reads.bind (reads_raw_n 2 res hr (by omega)) ?_
      exact Reads.map (f := Asf.Node.header res) (reads_times_map (Asf.objectOf (Asf.content n)) AsfObject.node AsfObject.enc os fun o ho =>
        reads_asf_object _ o (hs o ho) (ih _ _ _ (h o ho)))
    | stream _ t c ht hc time htime number reserved crypt hf r hr d b hb h e he =>
      rw [Asf.contentOf, if_neg (by rw [List.length_append]; omega)]
      simp only [Asf.content]
      rw [if_neg (by decide), if_pos trivial]
      refine ReadsAll.within (Reads.all ?_) _ rfl
      have hh : Reads Asf.streamHead ⟨guidText t, guidText c, [time, b.length, e.length], [number, reserved, crypt], r⟩
          (t ++ (c ++ (numsBytes [8, 4, 4] [time, b.length, e.length] ++ (leBytes 2 (joinLE [7, 8, 1] [number, reserved, crypt]) ++ leBytes 4 r)))) := by
        refine Reads.bind (reads_guid t ht) (Reads.bind (reads_guid c hc) ?_)
        refine Reads.bind (reads_numbers [8, 4, 4] _ (by simp only [NumsFit]; norm_num; omega)) ?_
        refine Reads.bind (reads_packed_le 2 [7, 8, 1] _ (by decide) rfl (by simp [Fit]; omega)) ?_
        exact Reads.map (f := fun v => Asf.StreamHead.mk (guidText t) (guidText c) _ _ v) (reads_int_le 4 _ (by omega) (by norm_num; omega))
      have hj : joinLE [7, 8, 1] [number, reserved, crypt] = number + 128 * reserved + 32768 * crypt := by simp [joinLE]; omega
      have hd := ih _ _ _ h
      rw [← C152_kind t ht] at hd
      have hall := Reads.bind hh (f := fun h => do
          let d ← Asf.contentOf (Asf.content n) (h.ns.getD 1 0) (Asf.kindOf h.type)
          let e ← Cab.rawOr (h.ns.getD 2 0)
          pure (Asf.Node.stream h d e)) (Reads.bind hd (Reads.map (f := fun e => Asf.Node.stream _ d e) (reads_raw_or e _ rfl)))
      refine Reads.of_eq hall rfl ?_
      rw [hj]
      simp [numsBytes]

/-- **C152**: the objects of a file are read one after the other, until its end. -/
theorem C152_file (n : Nat) (os : List AsfObject) (hs : ∀ o ∈ os, o.Sized) (h : ∀ o ∈ os, AsfContent n (asfKind o.guid) o.content o.bytes) (hn : os.length < n) :
    ReadsAll (Asf.file n) (os.map AsfObject.node) (os.flatMap AsfObject.enc) := by
  refine reads_while_map _ AsfObject.node AsfObject.enc os n hn fun o ho => ⟨reads_asf_object _ o (hs o ho) (C152_content n _ _ _ (h o ho)), ?_⟩
  intro he
  have := congrArg List.length he
  rw [AsfObject.enc, List.length_append, (hs o ho).1] at this
  simp at this

/-- **C152**: a file that starts with a header of a proper size is taken. -/
theorem C152_valid (magic : Bytes) (size : Nat) : Asf.valid magic size = true ↔ asfKind magic = some .header ∧ 30 ≤ size ∧ size ≤ 102400 := by
  have hk : asfKind magic = some .header ↔ magic = [0x30, 0x26, 0xB2, 0x75, 0x8E, 0x66, 0xCF, 0x11, 0xA6, 0xD9, 0x00, 0xAA, 0x00, 0x62, 0xCE, 0x6C] := by
    constructor
    · intro h
      simp only [asfKind, asfGuids, List.lookup_cons] at h
      repeat' split at h
      all_goals first
        | exact absurd h (by decide)
        | (rename_i h1; exact eq_of_beq h1)
        | exact absurd h (by rw [List.lookup_nil]; decide)
    · rintro rfl
      decide
  rw [hk, Asf.valid, Bool.and_eq_true, beq_iff_eq, decide_eq_true_iff]

/-! ## What is told -/

/-- **C152**: a file with a stream of pictures is a video, one with streams of sound only is sound, others are neither. -/
theorem C152_mime (streams : List (Asf.StreamHead × Asf.Node)) :
    Asf.mime streams =
      if ∃ s ∈ streams, s.1.type = asc "BC19EFC0-5B4D-11CF-A8FD-00805F5C442B" then asc "video/x-ms-wmv"
      else if ∃ s ∈ streams, s.1.type = asc "F8699E40-5B4D-11CF-A8FD-00805F5C442B" then asc "audio/x-ms-wma" else asc "video/x-ms-asf" := by
  classical
  have key : ∀ (ts : List Bytes) (a : Bool), Asf.mimeFrom a ts =
      if asc "BC19EFC0-5B4D-11CF-A8FD-00805F5C442B" ∈ ts then asc "video/x-ms-wmv"
      else if a = true ∨ asc "F8699E40-5B4D-11CF-A8FD-00805F5C442B" ∈ ts then asc "audio/x-ms-wma" else asc "video/x-ms-asf" := by
    intro ts
    induction ts with
    | nil => intro a; cases a <;> rfl
    | cons t ts ih =>
      intro a
      rw [Asf.mimeFrom]
      by_cases h1 : t = asc "BC19EFC0-5B4D-11CF-A8FD-00805F5C442B"
      · rw [if_pos h1, if_pos (by simp [h1])]
      · rw [if_neg h1]
        by_cases h2 : t = asc "F8699E40-5B4D-11CF-A8FD-00805F5C442B"
        · rw [if_pos h2, ih true]
          simp [List.mem_cons, h2]
          grind
        · rw [if_neg h2, ih a]
          simp [List.mem_cons, Ne.symm h1, Ne.symm h2]
  rw [Asf.mime, key]
  simp [List.mem_map]

/-- The bit rate of a stream: that of the entry with its number. -/
def rateOfStream (rates : List Asf.Rate) (number : Nat) : Option Nat := (rates.find? fun r => r.stream == number).map (·.rate)

/-- **C152**: the rate that is told for a stream is its own, if the rates are in the order of the streams.  (Missing: other orders, `C152_rate_wrong`.) -/
theorem C152_rate_partial (rates : List Asf.Rate) (numbers : List Nat) (hd : numbers.Nodup) (h : rates.map (·.stream) = numbers) (i : Nat) (hi : i < numbers.length) :
    Asf.rateFor rates i = rateOfStream rates (numbers[i]) := by
  subst h
  rw [List.length_map] at hi
  have hf : rates.find? (fun r => r.stream == (rates.map (·.stream))[i]'(by simpa using hi)) = some rates[i] := by
    rw [List.find?_eq_some_iff_getElem]
    refine ⟨by simp, i, hi, rfl, fun j hj => ?_⟩
    have := (List.pairwise_iff_getElem.1 hd) j i (by simp; omega) (by simpa using hi) hj
    simpa using this
  rw [Asf.rateFor, rateOfStream, hf, List.getElem?_eq_getElem hi]

/-- The rates of two streams, told for each other. -/
theorem C152_rate_wrong : ∃ (rates : List Asf.Rate) (numbers : List Nat), (rates.map (·.stream)).Perm numbers ∧ numbers.Nodup ∧
    Asf.rateFor rates 0 = some 1000 ∧ numbers.head? = some 1 ∧ rateOfStream rates 1 = some 64000 :=
  ⟨[⟨2, 0, 1000⟩, ⟨1, 0, 64000⟩], [1, 2], List.Perm.swap _ _ _, by decide, by decide, by decide, by decide⟩

/-- **C152**: title, author and copyright are told, if none of them is empty.  (Missing: `C152_untitled`.) -/
theorem C152_told_partial (title author copyright : Bytes) (more : List Bytes) (h1 : title ≠ []) (h2 : author ≠ []) (h3 : copyright ≠ []) :
    Asf.told (title :: author :: copyright :: more) = [("title", title), ("author", author), ("copyright", copyright)] := by
  rw [Asf.told, if_neg h1, if_neg h2, if_neg h3]

/-- Of a file without author the copyright is not told. -/
theorem C152_authorless (title copyright : Bytes) (more : List Bytes) (h1 : title ≠ []) : Asf.told (title :: [] :: copyright :: more) = [("title", title)] := by
  rw [Asf.told, if_neg h1, if_pos rfl]

theorem C152_no_copyright (title author : Bytes) (more : List Bytes) (h1 : title ≠ []) (h2 : author ≠ []) :
    Asf.told (title :: author :: [] :: more) = [("title", title), ("author", author)] := by
  rw [Asf.told, if_neg h1, if_neg h2, if_pos rfl]

/-- Of a file without title the author is not told. -/
theorem C152_untitled (author copyright : Bytes) (more : List Bytes) : Asf.told ([] :: author :: copyright :: more) = [] := rfl

/-- An empty text cannot be read: the descriptors behind it are lost. -/
theorem C152_empty_text (name : Bytes) (hn : name.length < 65536) :
    Fails Asf.desc .field (leBytes 2 name.length ++ name ++ (leBytes 2 0 ++ (leBytes 2 0 ++ []))) := by
  refine Reads.fails (reads_pascal16_le .utf16le (by decide) name hn) ?_
  refine Reads.fails (reads_int_le 2 0 (by omega) (by norm_num)) ?_
  refine Reads.fails (reads_int_le 2 0 (by omega) (by norm_num)) ?_
  exact fun _ _ _ _ _ _ _ => rfl

/-- The number of a track is told as the number of all tracks. -/
theorem C152_track : Asf.keyOf ("WM/TrackNumber".toList.map Char.toNat) = "TrackNumber".toList.map Char.toNat ∧ Asf.attrOf "TrackNumber" = some "track_total" := by
  decide +kernel

/-- A variable bit rate is told to be constant, and a constant one not at all. -/
theorem C152_vbr (v : Nat) (h : v ≠ 0) : Asf.isVbr (some v) = some false ∧ Asf.isVbr (some 0) = none := by
  cases v with
  | zero => exact absurd rfl h
  | succ v => exact ⟨rfl, rfl⟩

/-! ## Samples -/

/-- A list of bit rates in a header, and an object of unknown type. -/
def asfSample : List AsfObject := [
  ⟨[0xCE, 0x75, 0xF8, 0x7B, 0x8D, 0x46, 0xD1, 0x11, 0x8D, 0x82, 0x00, 0x60, 0x97, 0xC9, 0xA2, 0xB2], .leaf (.bitRates [⟨1, 0, 64000⟩]),
    leBytes 2 1 ++ [⟨1, 0, 64000⟩].flatMap rateBytes⟩,
  ⟨List.replicate 16 7, .raw [1, 2, 3], [1, 2, 3]⟩]

theorem asf_sample_content : ∀ o ∈ asfSample, o.Sized ∧ AsfContent 1 (asfKind o.guid) o.content o.bytes := by
  intro o ho
  simp only [asfSample, List.mem_cons, List.not_mem_nil, or_false] at ho
  rcases ho with rfl | rfl
  · exact ⟨⟨rfl, by decide +kernel⟩, .leaf 0 .bitRates _ _ (.bitRates [⟨1, 0, 64000⟩] (by decide) (by simp [RateGood]))⟩
  · exact ⟨⟨rfl, by decide +kernel⟩, .raw 1 _ (by simp)⟩

example : AsfContent 2 (some .header) (.header [1, 2] (asfSample.map AsfObject.node)) (leBytes 4 2 ++ ([1, 2] ++ asfSample.flatMap AsfObject.enc)) :=
  .header 1 [1, 2] rfl asfSample (by decide) (fun o ho => (asf_sample_content o ho).1) (fun o ho => (asf_sample_content o ho).2)

/-- A stream of sound inside of a header. -/
example : ∃ bs, AsfContent 2 (some .streamProp)
    (.stream ⟨guidText [0x40, 0x9E, 0x69, 0xF8, 0x4D, 0x5B, 0xCF, 0x11, 0xA8, 0xFD, 0x00, 0x80, 0x5F, 0x5C, 0x44, 0x2B], guidText (List.replicate 16 0), [5, 18, 0], [1, 0, 0], 0⟩
      (.leaf (.audio [0x161, 2, 44100, 8000, 4, 16] [])) []) bs :=
  ⟨_, .stream 1 [0x40, 0x9E, 0x69, 0xF8, 0x4D, 0x5B, 0xCF, 0x11, 0xA8, 0xFD, 0x00, 0x80, 0x5F, 0x5C, 0x44, 0x2B] (List.replicate 16 0) rfl rfl 5 (by decide) 1 0 0 (by decide)
    0 (by decide) _ _ (by decide +kernel) (.leaf 0 .audio _ _ (.audio [0x161, 2, 44100, 8000, 4, 16] (by simp [NumsFit]) [] (by decide))) [] (by decide)⟩

end Hachoir.Props

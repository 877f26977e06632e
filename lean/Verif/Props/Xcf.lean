import Verif.Formats.Xcf
import Verif.Props.Reader

/-!
# C171: Gimp pictures
-/

namespace Hachoir.Props
open Hachoir Hachoir.Stream Hachoir.Field Hachoir.Formats Hachoir.Formats.Xcf Spec _root_.Props

/-! ### Specification -/

/-- A number of four bytes. -/
def gimpInt (v : Nat) : Bytes := beBytes 4 v

/-- A text with its size. -/
def gimpText (b : Bytes) : Bytes := beBytes 4 b.length ++ b

def parasiteBytes (p : Parasite) : Bytes := gimpText p.name ++ (gimpInt p.flags ++ gimpText p.data)

def ParasiteFits (p : Parasite) : Prop := p.name.length < 2 ^ 32 ∧ p.flags < 2 ^ 32 ∧ p.data.length < 2 ^ 32

/-- What is shown of the data of a property of this type. -/
inductive GimpData : Nat → Data → Bytes → Prop where
  | nothing (t : Nat) : GimpData t .nothing []
  | opacity (r g b a : Nat) (h : r < 256 ∧ g < 256 ∧ b < 256 ∧ a < 256) : GimpData 6 (.rgba r g b a) (beBytes 1 r ++ (beBytes 1 g ++ (beBytes 1 b ++ beBytes 1 a)))
  | mode (n : Nat) (h : n < 2 ^ 32) : GimpData 7 (.mode n) (gimpInt n)
  /-- visible, linked, lock alpha, apply mask, edit mask, show mask: nothing is shown -/
  | flag (t : Nat) (b : Bytes) (h : 8 ≤ t ∧ t ≤ 13) (hb : b ≠ []) : GimpData t .lost b
  | offsets (x y : Nat) (h : x < 2 ^ 32 ∧ y < 2 ^ 32) : GimpData 15 (.offsets x y) (gimpInt x ++ gimpInt y)
  | compression (n : Nat) (h : n < 256) : GimpData 17 (.compression n) (beBytes 1 n)
  | resolution (x y : Nat) (h : x < 2 ^ 32 ∧ y < 2 ^ 32) : GimpData 19 (.resolution x y) (gimpInt x ++ gimpInt y)
  | tattoo (n : Nat) (h : n < 2 ^ 32) : GimpData 20 (.tattoo n) (gimpInt n)
  | parasites (l : List Parasite) (hl : l ≠ []) (h : ∀ p ∈ l, ParasiteFits p) : GimpData 21 (.parasites l) (l.flatMap parasiteBytes)
  | unit (n : Nat) (h : n < 2 ^ 32) : GimpData 22 (.unit n) (gimpInt n)
  | raw (t : Nat) (b : Bytes) (h : t ∉ [6, 7, 8, 9, 10, 11, 12, 13, 15, 17, 19, 20, 21, 22]) (hb : b ≠ []) : GimpData t (.raw b) b

/-- A property. -/
inductive GimpProperty : Property → Bytes → Prop where
  | mk (t : Nat) (d : Data) (b : Bytes) (ht : t < 2 ^ 32) (hb : b.length < 2 ^ 32) (hd : GimpData t d b) : GimpProperty ⟨t, b.length, d⟩ (gimpInt t ++ (gimpInt b.length ++ b))

/-- A list of properties: the one of type 0, and no other, is the last. -/
inductive GimpProperties : List Property → Bytes → Prop where
  | last (p : Property) (b : Bytes) (h : GimpProperty p b) (ht : p.type = 0) : GimpProperties [p] b
  | more (p : Property) (b : Bytes) (l : List Property) (bs : Bytes) (h : GimpProperty p b) (ht : p.type ≠ 0) (hl : GimpProperties l bs) : GimpProperties (p :: l) (b ++ bs)

/-- The bytes of an offset: from version 11 on there are 8. -/
def gimpWidth (version : Nat) : Nat := if version < 11 then 4 else 8

/-- A list of offsets ends with 0. -/
def offsetsBytes (version : Nat) (l : List Nat) : Bytes := (l ++ [0]).flatMap (beBytes (gimpWidth version))

def OffsetsFit (version : Nat) (l : List Nat) : Prop := ∀ o ∈ l, 0 < o ∧ o < 256 ^ gimpWidth version

/-- A layer, up to its pixels. -/
inductive GimpLayer (version : Nat) : Layer → Bytes → Prop where
  | mk (y : Layer) (ps : Bytes) (h : y.width < 2 ^ 32 ∧ y.height < 2 ^ 32 ∧ y.type < 2 ^ 32 ∧ y.name.length < 2 ^ 32) (hp : GimpProperties y.properties ps)
      (ho : y.hierarchy < 256 ^ gimpWidth version ∧ y.mask < 256 ^ gimpWidth version) :
      GimpLayer version y (gimpInt y.width ++ (gimpInt y.height ++ (gimpInt y.type ++ (gimpText y.name ++ (ps ++ (beBytes (gimpWidth version) y.hierarchy ++ beBytes (gimpWidth version) y.mask))))))

/-- The signature of a version: the first has a name. -/
def gimpSignature (version : Nat) : Bytes :=
  [103, 105, 109, 112, 32, 120, 99, 102, 32] ++
    if version = 0 then [102, 105, 108, 101, 0]
    else [118, UInt8.ofNat (48 + version / 100), UInt8.ofNat (48 + version / 10 % 10), UInt8.ofNat (48 + version % 10), 0]

/-- The precision, since version 4. -/
def precisionBytes : Option Nat → Bytes
  | none => []
  | some p => gimpInt p

/-- The beginning of a file. -/
inductive GimpHead : Picture → Bytes → Prop where
  | mk (p : Picture) (ps : Bytes) (h : p.version < 1000 ∧ p.width < 2 ^ 32 ∧ p.height < 2 ^ 32 ∧ p.type < 2 ^ 32) (hpre : p.precision.isSome = decide (4 ≤ p.version)) (hpf : ∀ n ∈ p.precision, n < 2 ^ 32)
      (hp : GimpProperties p.properties ps) (hl : OffsetsFit p.version p.layerOffsets) (hc : OffsetsFit p.version p.channelOffsets) :
      GimpHead p (gimpSignature p.version ++ (gimpInt p.width ++ (gimpInt p.height ++ (gimpInt p.type ++ (precisionBytes p.precision ++ (ps ++ (offsetsBytes p.version p.layerOffsets ++
        offsetsBytes p.version p.channelOffsets)))))))

/-- The layers are at their offsets, one behind the other from the byte `a` on. -/
inductive GimpLayers (data : Bytes) (version : Nat) : Nat → List Nat → List Layer → Prop where
  | nil (a : Nat) : GimpLayers data version a [] []
  | cons (a o : Nat) (os : List Nat) (y : Layer) (ys : List Layer) (b : Bytes) (ha : a ≤ o) (h : GimpLayer version y b) (hp : b <+: data.drop o) (hr : GimpLayers data version (o + b.length) os ys) :
      GimpLayers data version a (o :: os) (y :: ys)

/-! ### Properties -/

theorem reads_gimp_int (v : Nat) (h : v < 2 ^ 32) : Reads (Rd.int 4 .big) v (gimpInt v) := reads_int_be 4 v (by decide) (by simpa using h)

theorem reads_gimp_text (b : Bytes) (hb : b.length < 2 ^ 32) : Reads (Rd.text .big .pascal32 .utf8 none) b (gimpText b) := by
  intro data s hs k stop hp hst
  obtain ⟨t, ht⟩ := hp
  obtain ⟨r1, r2⟩ := C50_pascal_partial hs .big (by decide) k .pascal32 4 rfl (beBytes 4 b.length) b t (beBytes_length 4 _) (by rw [← ht, gimpText, List.append_assoc])
    ((beBytes_big 4 b.length (by omega)).2) .utf8 (by decide)
  rw [Rd.text, r1]
  simp only []
  rw [r2]
  simp only [gimpText, List.length_append, beBytes_length, Except.ok.injEq, Prod.mk.injEq, true_and]
  omega

theorem reads_parasite (p : Parasite) (h : ParasiteFits p) : Reads Xcf.parasite p (parasiteBytes p) :=
  Reads.bind (reads_gimp_text p.name h.1) (Reads.bind (reads_gimp_int p.flags h.2.1) (Reads.map (f := fun d => (⟨p.name, p.flags, d⟩ : Parasite)) (reads_gimp_text p.data h.2.2)))

theorem parasite_ne (p : Parasite) : parasiteBytes p ≠ [] := by
  intro h
  have := congrArg List.length h
  simp [parasiteBytes, gimpText, beBytes_length] at this

/-- A field set of told size that reads nothing. -/
theorem reads_within_none {α : Type} {r : Rd α} {v : α} (h : Reads r v []) (n : Nat) (b : Bytes) (hn : n = b.length) : Reads (Rd.within n r) v b := by
  subst hn
  intro data s hs k stop hp _
  rw [Rd.within, h data s hs k _ (List.nil_prefix) (by simp only [List.length_nil]; omega)]
  exact congrArg (fun n => Except.ok (v, n)) (by omega)

theorem reads_gimp_data {t : Nat} {d : Data} {b : Bytes} (h : GimpData t d b) (fuel : Nat) (hf : b.length < fuel) : Reads (Rd.within b.length (dataOf fuel t b.length)) d b := by
  cases h with
  | nothing => exact reads_within_none (reads_pure _) 0 _ rfl
  | opacity r g b a h =>
    refine ReadsAll.within (Reads.all ?_) _ rfl
    rw [dataOf, if_neg (by simp [beBytes_length]), if_pos rfl]
    exact Reads.bind (reads_int_be 1 r (by decide) (by omega)) (Reads.bind (reads_int_be 1 g (by decide) (by omega)) (Reads.bind (reads_int_be 1 b (by decide) (by omega))
      (Reads.map (f := fun x => Data.rgba r g b x) (reads_int_be 1 a (by decide) (by omega)))))
  | mode n h =>
    refine ReadsAll.within (Reads.all ?_) _ rfl
    rw [dataOf, if_neg (by simp [gimpInt, beBytes_length])]
    exact Reads.map (f := Data.mode) (reads_gimp_int n h)
  | flag t b h hb =>
    refine reads_within_none ?_ _ _ rfl
    rw [dataOf, if_neg (by simpa using hb), if_neg (by omega), if_neg (by omega), if_pos h]
    exact reads_pure _
  | offsets x y h =>
    refine ReadsAll.within (Reads.all ?_) _ rfl
    rw [dataOf, if_neg (by simp [gimpInt, beBytes_length])]
    exact Reads.bind (reads_gimp_int x h.1) (Reads.map (f := Data.offsets x) (reads_gimp_int y h.2))
  | compression n h =>
    refine ReadsAll.within (Reads.all ?_) _ rfl
    rw [dataOf, if_neg (by simp [beBytes_length])]
    exact Reads.map (f := Data.compression) (reads_int_be 1 n (by decide) (by omega))
  | resolution x y h =>
    refine ReadsAll.within (Reads.all ?_) _ rfl
    rw [dataOf, if_neg (by simp [gimpInt, beBytes_length])]
    exact Reads.bind (reads_gimp_int x h.1) (Reads.map (f := Data.resolution x) (reads_gimp_int y h.2))
  | tattoo n h =>
    refine ReadsAll.within (Reads.all ?_) _ rfl
    rw [dataOf, if_neg (by simp [gimpInt, beBytes_length])]
    exact Reads.map (f := Data.tattoo) (reads_gimp_int n h)
  | parasites l hl h =>
    refine ReadsAll.within ?_ _ rfl
    have hlen : l.length ≤ (l.flatMap parasiteBytes).length := by
      clear h hl hf
      induction l with
      | nil => simp
      | cons p l ih =>
        have := List.length_pos_of_ne_nil (parasite_ne p)
        rw [List.flatMap_cons, List.length_append, List.length_cons]
        omega
    have h0 := List.length_pos_of_ne_nil hl
    rw [dataOf, if_neg (by omega)]
    have e : ReadsAll (Rd.whileNotEof Xcf.parasite fuel) l (l.flatMap parasiteBytes) := reads_while Xcf.parasite parasiteBytes l fuel (by omega) fun p hp => ⟨reads_parasite p (h p hp), parasite_ne p⟩
    intro data s hs k hp
    show Rd.bind (Rd.whileNotEof Xcf.parasite fuel) (fun l => Rd.pure (Data.parasites l)) s _ (8 * k) = _
    rw [Rd.bind, e data s hs k hp]
    rfl
  | unit n h =>
    refine ReadsAll.within (Reads.all ?_) _ rfl
    rw [dataOf, if_neg (by simp [gimpInt, beBytes_length])]
    exact Reads.map (f := Data.unit) (reads_gimp_int n h)
  | raw t b h hb =>
    refine ReadsAll.within (Reads.all ?_) _ rfl
    simp only [List.mem_cons, List.not_mem_nil, or_false, not_or] at h
    rw [dataOf, if_neg (by simpa using hb), if_neg (by omega), if_neg (by omega), if_neg (by omega), if_neg (by omega), if_neg (by omega), if_neg (by omega), if_neg (by omega), if_neg (by omega),
      if_neg (by omega)]
    exact Reads.map (f := Data.raw) (reads_raw b hb)

theorem reads_gimp_property {p : Property} {b : Bytes} (h : GimpProperty p b) (fuel : Nat) (hf : b.length < fuel) : Reads (Xcf.property fuel) p b := by
  obtain ⟨t, d, c, ht, hc, hd⟩ := h
  have hl : c.length < fuel := by
    simp only [List.length_append] at hf
    omega
  exact Reads.bind (reads_gimp_int t ht) (Reads.bind (reads_gimp_int c.length hc) (Reads.map (f := fun d => (⟨t, c.length, d⟩ : Property)) (reads_gimp_data hd fuel hl)))

/-- **C171**: the properties of a picture or layer, up to the one of type 0. -/
theorem C171_properties {l : List Property} {b : Bytes} (h : GimpProperties l b) (fuel : Nat) (hf : b.length < fuel) : ∀ n, l.length ≤ n → Reads (Xcf.properties fuel n) l b := by
  induction h with
  | last p b h ht =>
    intro n hn
    obtain ⟨n, rfl⟩ : ∃ m, n = m + 1 := ⟨n - 1, by simp at hn; omega⟩
    refine (Reads.rbind (reads_gimp_property h fuel hf) (ys := []) ?_).of_eq rfl (List.append_nil _)
    rw [if_pos ht]
    exact reads_rpure _
  | more p b l bs h ht hl ih =>
    intro n hn
    obtain ⟨n, rfl⟩ : ∃ m, n = m + 1 := ⟨n - 1, by simp at hn; omega⟩
    rw [List.length_append] at hf
    refine Reads.rbind (reads_gimp_property h fuel (by omega)) ?_
    rw [if_neg ht]
    exact Reads.rmap (f := fun l => p :: l) (ih (by omega) n (by simpa using hn))

theorem gimp_length {l : List Property} {b : Bytes} (h : GimpProperties l b) : l.length ≤ b.length := by
  have one : ∀ {p b}, GimpProperty p b → 1 ≤ b.length := by
    rintro _ _ ⟨t, d, c, _, _, _⟩
    simp [gimpInt, beBytes_length]
    omega
  induction h with
  | last p b h ht => simpa using one h
  | more p b l bs h ht hl ih =>
    have := one h
    rw [List.length_append, List.length_cons]
    omega

theorem width_eq (version : Nat) : Xcf.width version = gimpWidth version := by
  unfold Xcf.width gimpWidth
  split <;> split <;> omega

theorem width_pos (version : Nat) : 0 < gimpWidth version := by
  unfold gimpWidth
  split <;> decide

/-- **C171**: the list of offsets. -/
theorem C171_offsets (version : Nat) : ∀ (l : List Nat) (n : Nat), l.length < n → OffsetsFit version l → Reads (offsetList version n) l (offsetsBytes version l)
  | [], n + 1, _, _ => by
    rw [offsetList]
    refine (Reads.rbind (v := 0) (xs := beBytes (gimpWidth version) 0) (ys := []) (by rw [width_eq]; exact reads_int_be _ 0 (width_pos _) (Nat.pow_pos (by decide))) ?_).of_eq rfl (by simp [offsetsBytes])
    exact reads_rpure _
  | o :: l, n + 1, hn, h => by
    have ho := h o (List.mem_cons_self ..)
    rw [offsetList]
    refine (Reads.rbind (v := o) (xs := beBytes (gimpWidth version) o) (ys := offsetsBytes version l) (by rw [width_eq]; exact reads_int_be _ o (width_pos _) ho.2) ?_).of_eq rfl (by simp [offsetsBytes])
    rw [if_neg (by omega)]
    exact Reads.rmap (f := fun l => o :: l) (C171_offsets version l n (by simpa using hn) fun x hx => h x (List.mem_cons_of_mem _ hx))

/-- **C171**: a layer, up to its pixels. -/
theorem C171_layer {version : Nat} {y : Layer} {b : Bytes} (h : GimpLayer version y b) (fuel : Nat) (hf : b.length < fuel) : Reads (Xcf.layer version fuel) y b := by
  obtain ⟨ps, hw, hp, ho⟩ := h
  have hl : ps.length < fuel := by
    simp only [List.length_append] at hf
    omega
  have hg := gimp_length hp
  refine Reads.bind (reads_gimp_int y.width hw.1) (Reads.bind (reads_gimp_int y.height hw.2.1) (Reads.bind (reads_gimp_int y.type hw.2.2.1) (Reads.bind (reads_gimp_text y.name hw.2.2.2)
    (Reads.bind (C171_properties hp fuel hl fuel (by omega)) ?_))))
  rw [width_eq]
  exact Reads.bind (reads_int_be _ y.hierarchy (width_pos _) ho.1) (Reads.map (f := fun m => (⟨y.width, y.height, y.type, y.name, y.properties, y.hierarchy, m⟩ : Layer))
    (reads_int_be _ y.mask (width_pos _) ho.2))

/-! ### Files -/

/-- **C171.** A signature with a letter instead of a digit has no version, unless it is the first one, `file`. -/
theorem C171_letters (v a b c : UInt8) (hl : 97 ≤ a ∨ 97 ≤ b ∨ 97 ≤ c) (hf : [v, a, b, c] ≠ [102, 105, 108, 101]) :
    versionOf ([103, 105, 109, 112, 32, 120, 99, 102, 32] ++ [v, a, b, c, 0]) = .error .value := by
  have h1 : ¬ [103, 105, 109, 112, 32, 120, 99, 102, 32, v, a, b, c, 0] = [103, 105, 109, 112, 32, 120, 99, 102, 32, 102, 105, 108, 101, (0 : UInt8)] := by
    intro e
    apply hf
    simp only [List.cons.injEq, and_true, true_and] at e ⊢
    exact e
  have h2 : ¬ ((48 ≤ a ∧ a ≤ 57) ∧ (48 ≤ b ∧ b ≤ 57) ∧ (48 ≤ c ∧ c ≤ 57)) := by
    simp only [UInt8.le_iff_toNat_le] at hl ⊢
    simp at hl ⊢
    omega
  simp only [List.cons_append, List.nil_append, versionOf, if_neg h1, if_neg h2]

example : (97 : UInt8) ≤ 48 ∨ (97 : UInt8) ≤ 120 ∨ (97 : UInt8) ≤ 49 := by decide

/-- **C171**: the version is the number in the signature. -/
theorem C171_version (v : Nat) (h : v < 1000) : versionOf (gimpSignature v) = .ok v := by
  have := (by decide +kernel : ∀ v : Fin 1000, versionOf (gimpSignature v.val) = .ok v.val) ⟨v, h⟩
  exact this

theorem layer_pos {version : Nat} {y : Layer} {b : Bytes} (h : GimpLayer version y b) : 0 < b.length := by
  obtain ⟨ps, hw, hp, ho⟩ := h
  simp [gimpInt, beBytes_length]

theorem layers_ordered {data : Bytes} {version : Nat} {a : Nat} {os : List Nat} {ys : List Layer} (h : GimpLayers data version a os ys) : ordered os = true := by
  induction h with
  | nil => rfl
  | cons a o os y ys b ha h hp hr ih =>
    cases hr with
    | nil => rfl
    | cons _ o' os' y' ys' b' ha' h' hp' hr' =>
      rw [ordered, ih]
      have := layer_pos h
      simp
      omega

theorem at_layers {data : Bytes} {version : Nat} {a : Nat} {os : List Nat} {ys : List Layer} (h : GimpLayers data version a os ys) (fuel : Nat) (hf : data.length < fuel) :
    ∃ b, AtPlace data (Rd.each (fun o => Rd.bind (Rd.seek o) fun _ => Xcf.layer version fuel) os) ys a b := by
  induction h with
  | nil a => exact ⟨a, fun _ _ => rfl⟩
  | cons a o os y ys b ha h hp hr ih =>
    obtain ⟨c, hc⟩ := ih
    have hl := hp.length_le
    have h0 := layer_pos h
    rw [List.length_drop] at hl
    have h1 : AtPlace data (Rd.bind (Rd.seek o) fun _ => Xcf.layer version fuel) y a (o + b.length) :=
      AtPlace.bind (f := fun _ => Xcf.layer version fuel) (at_seek data a o ha) ((C171_layer h fuel (by omega)).at hp (by omega))
    refine ⟨c, AtPlace.bind (f := fun x => Rd.bind (Rd.each (fun o => Rd.bind (Rd.seek o) fun _ => Xcf.layer version fuel) os) fun as => Rd.pure (x :: as)) h1 ?_⟩
    exact AtPlace.map (f := fun as => y :: as) hc

theorem reads_precision (version : Nat) (p : Option Nat) (h : p.isSome = decide (4 ≤ version)) (hf : ∀ n ∈ p, n < 2 ^ 32) : Reads (Xcf.precision version) p (precisionBytes p) := by
  cases p with
  | none =>
    rw [Xcf.precision, if_neg (by simpa using h)]
    exact reads_pure _
  | some n =>
    rw [Xcf.precision, if_pos (by simpa using h)]
    exact Reads.map (f := some) (reads_gimp_int n (hf n rfl))

theorem at_then {α β : Type} {data : Bytes} {r : Rd α} {f : α → Rd β} {v : α} {w : β} {xs ys : Bytes} {a c : Nat} (h1 : Reads r v xs) (hp : xs ++ ys <+: data.drop a) (ha : a ≤ data.length)
    (h2 : ys <+: data.drop (a + xs.length) → a + xs.length ≤ data.length → AtPlace data (f v) w (a + xs.length) c) : AtPlace data (r >>= f) w a c := by
  have hl := hp.length_le
  rw [List.length_append, List.length_drop] at hl
  exact AtPlace.bind (f := f) (h1.at (prefix_left (xs := xs) (ys := ys) hp) ha) (h2 (drop_prefix (xs := xs) (ys := ys) hp) (by omega))

theorem signature_length (v : Nat) : (gimpSignature v).length = 14 := by
  unfold gimpSignature
  split <;> rfl

/-- **C171**: a Gimp picture is read as it was written: version, size, type, properties, and the layers at their offsets with names, sizes and properties. -/
theorem C171_picture (data : Bytes) (p : Picture) (b : Bytes) (h : GimpHead p b) (hp : b <+: data) (hl : GimpLayers data p.version b.length p.layerOffsets p.layers) (fuel : Nat) (hf : data.length < fuel) :
    ∃ e, AtPlace data (Xcf.file fuel) p 0 e := by
  obtain ⟨ps, hw, hpre, hpf, hps, hlo, hco⟩ := h
  obtain ⟨e, he⟩ := at_layers hl fuel hf
  have ho := layers_ordered hl
  have hpl := hp.length_le
  have hg := gimp_length hps
  have hol : ∀ l, l.length < (offsetsBytes p.version l).length := by
    intro l
    unfold offsetsBytes
    have : ∀ l : List Nat, l.length ≤ (l.flatMap (beBytes (gimpWidth p.version))).length := by
      intro l
      induction l with
      | nil => simp
      | cons x l ih =>
        have := width_pos p.version
        rw [List.flatMap_cons, List.length_append, beBytes_length, List.length_cons]
        omega
    have := this (l ++ [0])
    simp only [List.length_append, List.length_singleton] at this
    omega
  have h1 := hol p.layerOffsets
  have h2 := hol p.channelOffsets
  simp only [List.length_append] at hpl
  refine ⟨e, at_then (f := fun sig => withVersion fuel (versionOf sig)) (reads_raw_n 14 (gimpSignature p.version) (signature_length _) (by decide)) (by simpa using hp) (Nat.zero_le _) fun hp l => ?_⟩
  rw [C171_version p.version hw.1]
  refine at_then (reads_gimp_int p.width hw.2.1) hp l fun hp l => ?_
  refine at_then (reads_gimp_int p.height hw.2.2.1) hp l fun hp l => ?_
  refine at_then (reads_gimp_int p.type hw.2.2.2) hp l fun hp l => ?_
  refine at_then (reads_precision p.version p.precision hpre hpf) hp l fun hp l => ?_
  refine at_then (C171_properties hps fuel (by omega) fuel (by omega)) hp l fun hp l => ?_
  refine at_then (C171_offsets p.version p.layerOffsets fuel (by omega) hlo) hp l fun hp l => ?_
  refine at_then (ys := []) (C171_offsets p.version p.channelOffsets fuel (by omega) hco) (by simpa using hp) l fun hp l => ?_
  rw [layers, if_pos ho]
  refine AtPlace.map (f := fun ls => (⟨p.version, p.width, p.height, p.type, p.precision, p.properties, p.layerOffsets, p.channelOffsets, ls⟩ : Picture)) ?_
  simp only [List.length_append, ← Nat.add_assoc] at he
  simpa using he

/-- **C171** (disagreement): whether a layer is visible, linked, locked, or has a mask that is applied, edited or shown, is not shown: the two flags are read alike. -/
theorem C171_flags (t : Nat) (h : 8 ≤ t ∧ t ≤ 13) (fuel : Nat) (hf : 12 < fuel) :
    Reads (Xcf.property fuel) ⟨t, 4, .lost⟩ (gimpInt t ++ (gimpInt 4 ++ gimpInt 0)) ∧ Reads (Xcf.property fuel) ⟨t, 4, .lost⟩ (gimpInt t ++ (gimpInt 4 ++ gimpInt 1)) :=
  ⟨reads_gimp_property (.mk t .lost (gimpInt 0) (by omega) (by decide) (.flag t _ h (by decide))) fuel (by simpa [gimpInt, beBytes_length] using hf),
    reads_gimp_property (.mk t .lost (gimpInt 1) (by omega) (by decide) (.flag t _ h (by decide))) fuel (by simpa [gimpInt, beBytes_length] using hf)⟩

/-- **C171** (disagreement): the opacity, a number of four bytes up to 255, is shown as a colour without red, green and blue. -/
theorem C171_opacity (o : Nat) (h : o < 256) (fuel : Nat) (hf : 12 < fuel) : Reads (Xcf.property fuel) ⟨6, 4, .rgba 0 0 0 o⟩ (gimpInt 6 ++ (gimpInt 4 ++ gimpInt o)) := by
  have e : gimpInt o = beBytes 1 0 ++ (beBytes 1 0 ++ (beBytes 1 0 ++ beBytes 1 o)) :=
    (by decide +kernel : ∀ o : Fin 256, gimpInt o.val = beBytes 1 0 ++ (beBytes 1 0 ++ (beBytes 1 0 ++ beBytes 1 o.val))) ⟨o, h⟩
  have := reads_gimp_property (.mk 6 (.rgba 0 0 0 o) (gimpInt o) (by decide) (by simp [gimpInt, beBytes_length]) (by rw [e]; exact .opacity 0 0 0 o (by omega))) fuel (by simpa [gimpInt, beBytes_length] using hf)
  simpa [gimpInt, beBytes_length] using this

/-- **C171**: a table of layers that are not one behind the other is refused. -/
theorem C171_order (version fuel a b : Nat) (l : List Nat) (h : b ≤ a) (s : InputStream) (stop k : Nat) : Xcf.layers version fuel (a :: b :: l) s stop k = .error .parser := by
  have : ordered (a :: b :: l) = false := by
    rw [ordered, decide_eq_false (by omega), Bool.false_and]
  rw [Xcf.layers, this]
  rfl

/-! ### Example -/

/-- A layer named "sky", with an offset. -/
def skyLayer : Layer := ⟨640, 400, 1, [115, 107, 121, 0], [⟨15, 8, .offsets 3 5⟩, ⟨0, 0, .nothing⟩], 1000, 0⟩

def skyBytes : Bytes :=
  gimpInt 640 ++ (gimpInt 400 ++ (gimpInt 1 ++ (gimpText [115, 107, 121, 0] ++ (((gimpInt 15 ++ (gimpInt 8 ++ (gimpInt 3 ++ gimpInt 5))) ++ (gimpInt 0 ++ (gimpInt 0 ++ []))) ++ (beBytes 4 1000 ++ beBytes 4 0)))))

/-- A picture of version 1, with that layer. -/
def skyPicture : Picture := ⟨1, 640, 480, 0, none, [⟨17, 1, .compression 1⟩, ⟨0, 0, .nothing⟩], [200], [], [skyLayer]⟩

def skyHead : Bytes :=
  gimpSignature 1 ++ (gimpInt 640 ++ (gimpInt 480 ++ (gimpInt 0 ++ (precisionBytes none ++ (((gimpInt 17 ++ (gimpInt 1 ++ beBytes 1 1)) ++ (gimpInt 0 ++ (gimpInt 0 ++ []))) ++ (offsetsBytes 1 [200] ++ offsetsBytes 1 []))))))

def skyFile : Bytes := skyHead ++ List.replicate (200 - skyHead.length) 0 ++ skyBytes

theorem sky_layer : GimpLayer 1 skyLayer skyBytes :=
  .mk skyLayer _ (by decide) (.more _ _ _ _ (.mk 15 _ _ (by decide) (by decide) (.offsets 3 5 (by decide))) (by decide) (.last _ _ (.mk 0 _ _ (by decide) (by decide) (.nothing 0)) rfl)) (by decide)

example : ∃ e, AtPlace skyFile (Xcf.file 1000) skyPicture 0 e :=
  C171_picture skyFile skyPicture skyHead
    (.mk skyPicture _ (by decide) rfl (by simp [skyPicture])
      (.more _ _ _ _ (.mk 17 _ _ (by decide) (by decide) (.compression 1 (by decide))) (by decide) (.last _ _ (.mk 0 _ _ (by decide) (by decide) (.nothing 0)) rfl))
      (by intro o ho; simp [skyPicture] at ho; subst ho; decide) (by intro o ho; simp [skyPicture] at ho))
    ⟨List.replicate (200 - skyHead.length) 0 ++ skyBytes, by rw [skyFile, List.append_assoc]⟩
    (.cons _ 200 [] skyLayer [] skyBytes (by decide +kernel) sky_layer (by decide +kernel) (.nil _)) 1000 (by decide +kernel)

end Hachoir.Props

import Verif.Formats.Model3do
import Verif.Props.Pifv
import Verif.Props.Asf

/-!
# C198: models of Renderdroid
-/

namespace Hachoir.Props
open Spec Hachoir Hachoir.Stream Hachoir.Field Hachoir.Formats Hachoir.Formats.Model3do

/-! ## How a model is written -/

/-- A number of 4 bytes, highest byte first in a `MODL` file, lowest first in an `LDOM` file. -/
def solidWord (big : Bool) (v : Nat) : Bytes := if big then beBytes 4 v else leBytes 4 v

def solidWords (big : Bool) (vs : List Nat) : Bytes := vs.flatMap (solidWord big)

/-- So many numbers, each of 4 bytes. -/
def Solid (n : Nat) (vs : List Nat) : Prop := vs.length = n ∧ ∀ v ∈ vs, v < 2 ^ 32

/-- Rows of so many numbers each. -/
def SolidRows (width n : Nat) (rows : List (List Nat)) : Prop := rows.length = n ∧ ∀ r ∈ rows, Solid width r

def solidFace (big : Bool) (f : Face) : Bytes :=
  solidWords big f.head ++ (solidWords big f.vertices ++ (solidWords big f.textures ++ solidWords big f.material.toList))

/-- A face: 19 numbers, the sixth of which is the count of vertices; the eighth tells whether there are textures, as many as vertices and at least one, the ninth whether there is a material. -/
structure SolidFace (f : Face) : Prop where
  head : Solid 19 f.head
  vertices : Solid (f.head.getD 5 0) f.vertices
  textures : if f.head.getD 7 0 = 0 then f.textures = [] else Solid (f.head.getD 5 0) f.textures ∧ f.textures ≠ []
  material : if f.head.getD 8 0 = 0 then f.material = none else ∃ m < 2 ^ 32, f.material = some m

def solidMesh (big : Bool) (m : Mesh) : Bytes :=
  m.name ++ (solidWords big m.head ++ (m.vertices.flatMap (solidWords big) ++ (m.maps.flatMap (solidWords big) ++ (solidWords big m.lights ++
    (solidWords big m.unknown ++ (m.faces.flatMap (solidFace big) ++ (m.normals.flatMap (solidWords big) ++ solidWords big m.tail)))))))

/-- A mesh: a name, 7 numbers, of which the last three are the counts of vertices, places in textures and faces. -/
structure SolidMesh (m : Mesh) : Prop where
  name : m.name.length = 32
  head : Solid 7 m.head
  vertices : SolidRows 3 (m.head.getD 4 0) m.vertices
  maps : SolidRows 2 (m.head.getD 5 0) m.maps
  lights : Solid (m.head.getD 4 0) m.lights
  unknown : Solid (m.head.getD 4 0) m.unknown
  count : m.faces.length = m.head.getD 6 0
  faces : ∀ f ∈ m.faces, SolidFace f
  normals : SolidRows 3 (m.head.getD 4 0) m.normals
  tail : Solid 9 m.tail

/-- A list with its count before it. -/
def solidCounted {α : Type} (big : Bool) (enc : α → Bytes) (vs : List α) : Bytes := solidWord big vs.length ++ vs.flatMap enc

/-- The file up to the nodes. -/
structure SolidFront where
  big : Bool
  materials : List Bytes
  name : Bytes
  unknown1 : Bytes
  geosets : List (List Mesh)
  unknown2 : Bytes

def SolidFront.sign (f : SolidFront) : Bytes := if f.big then [0x4D, 0x4F, 0x44, 0x4C] else [0x4C, 0x44, 0x4F, 0x4D]

def SolidFront.bytes (f : SolidFront) (ending : Bytes) : Bytes :=
  f.sign ++ (solidCounted f.big id f.materials ++ (f.name ++ (f.unknown1 ++ (solidCounted f.big (solidCounted f.big (solidMesh f.big)) f.geosets ++ (f.unknown2 ++ ending)))))

structure SolidFront.Good (f : SolidFront) : Prop where
  count : f.materials.length < 2 ^ 32
  materials : ∀ m ∈ f.materials, m.length = 32
  name : f.name.length = 32
  unknown1 : f.unknown1.length = 4
  geosets : f.geosets.length < 2 ^ 32
  sets : ∀ g ∈ f.geosets, g.length < 2 ^ 32 ∧ ∀ m ∈ g, SolidMesh m
  unknown2 : f.unknown2.length = 4

def SolidFront.told (f : SolidFront) (e : Ending) : Model := ⟨f.sign, f.materials, f.name, f.unknown1, f.geosets, f.unknown2, e⟩

/-! ## Reading -/

def solidEndian (big : Bool) : Endian := if big then .big else .little

theorem reads_solid_word (big : Bool) (v : Nat) (h : v < 2 ^ 32) : Reads (Rd.int 4 (solidEndian big)) v (solidWord big v) := by
  cases big
  · exact reads_int_le 4 v (by norm_num) (by norm_num at h ⊢; omega)
  · exact reads_int_be 4 v (by norm_num) (by norm_num at h ⊢; omega)

theorem reads_solid_words (big : Bool) (n : Nat) (vs : List Nat) (h : Solid n vs) : Reads (words (solidEndian big) n) vs (solidWords big vs) :=
  reads_times_n _ _ vs n h.1.symm fun v hv => reads_solid_word big v (h.2 v hv)

theorem reads_solid_rows (big : Bool) (width n : Nat) (rows : List (List Nat)) (h : SolidRows width n rows) :
    Reads (items (solidEndian big) width n) rows (rows.flatMap (solidWords big)) :=
  reads_times_n _ _ rows n h.1.symm fun r hr => reads_solid_words big width r (h.2 r hr)

theorem reads_solid_text (big : Bool) (b : Bytes) (h : b.length = 32) : Reads (text32 (solidEndian big)) b b :=
  reads_fixed _ .eightBit (by decide) 32 b h (by norm_num)

theorem reads_solid_counted {α : Type} (big : Bool) (r : Rd α) (enc : α → Bytes) (vs : List α) (hl : vs.length < 2 ^ 32) (h : ∀ v ∈ vs, Reads r v (enc v)) :
    Reads (counted (solidEndian big) r) vs (solidCounted big enc vs) :=
  Reads.rbind (reads_solid_word big _ hl) (reads_times r enc vs h)

theorem reads_solid_textures (big : Bool) (has n : Nat) (ts : List Nat) (h : if has = 0 then ts = [] else Solid n ts ∧ ts ≠ []) :
    Reads (textures (solidEndian big) has n) ts (solidWords big ts) := by
  by_cases h0 : has = 0
  · rw [if_pos h0] at h
    subst h
    rw [textures, if_pos h0]
    exact reads_rpure _
  · rw [if_neg h0] at h
    have : n ≠ 0 := by
      have := List.length_pos_of_ne_nil h.2
      rw [h.1.1] at this
      omega
    rw [textures, if_neg h0, if_neg this]
    exact reads_solid_words big n ts h.1

theorem reads_solid_material (big : Bool) (has : Nat) (m : Option Nat) (h : if has = 0 then m = none else ∃ x < 2 ^ 32, m = some x) :
    Reads (material (solidEndian big) has) m (solidWords big m.toList) := by
  by_cases h0 : has = 0
  · rw [if_pos h0] at h
    subst h
    rw [material, if_pos h0]
    exact reads_rpure _
  · rw [if_neg h0] at h
    obtain ⟨x, hx, rfl⟩ := h
    rw [material, if_neg h0]
    refine Reads.of_eq (Reads.rmap (f := some) (reads_solid_word big x hx)) rfl ?_
    simp [solidWords]

theorem reads_solid_face (big : Bool) (f : Face) (h : SolidFace f) : Reads (face (solidEndian big)) f (solidFace big f) :=
  Reads.rbind (reads_solid_words big 19 f.head h.head) (Reads.rbind (reads_solid_words big _ f.vertices h.vertices)
    (Reads.rbind (reads_solid_textures big _ _ f.textures h.textures) (Reads.rmap (f := fun m => Face.mk f.head f.vertices f.textures m) (reads_solid_material big _ f.material h.material))))

theorem reads_solid_mesh (big : Bool) (m : Mesh) (h : SolidMesh m) : Reads (mesh (solidEndian big)) m (solidMesh big m) :=
  Reads.rbind (reads_solid_text big m.name h.name) (Reads.rbind (reads_solid_words big 7 m.head h.head) (Reads.rbind (reads_solid_rows big 3 _ m.vertices h.vertices)
    (Reads.rbind (reads_solid_rows big 2 _ m.maps h.maps) (Reads.rbind (reads_solid_words big _ m.lights h.lights) (Reads.rbind (reads_solid_words big _ m.unknown h.unknown)
      (Reads.rbind (reads_times_n _ (solidFace big) m.faces _ h.count.symm fun f hf => reads_solid_face big f (h.faces f hf))
        (Reads.rbind (reads_solid_rows big 3 _ m.normals h.normals)
          (Reads.rmap (f := fun t => Mesh.mk m.name m.head m.vertices m.maps m.lights m.unknown m.faces m.normals t) (reads_solid_words big 9 m.tail h.tail)))))))))

theorem reads_solid_materials (big : Bool) (ms : List Bytes) (hl : ms.length < 2 ^ 32) (h : ∀ m ∈ ms, m.length = 32) :
    Reads (materials (solidEndian big)) ms (solidCounted big id ms) := by
  refine Reads.rbind (reads_solid_word big _ hl) (ReadsAll.within (Reads.all (reads_times _ id ms fun m hm => reads_solid_text big m (h m hm))) _ ?_)
  rw [List.length_flatMap, List.map_congr_left (f := fun a => (id a : Bytes).length) (g := fun _ => 32) fun m hm => h m hm]
  simp

theorem solid_front (f : SolidFront) (h : f.Good) (e : Ending) (bs : Bytes) (he : ReadsAll (ending (solidEndian f.big)) e bs) : ReadsAll model (f.told e) (f.bytes bs) := by
  have hs : endianOf f.sign = solidEndian f.big := by
    rw [SolidFront.sign]
    cases f.big <;> decide
  have ht : Reads (Rd.text .little .fixed .eightBit (some 4)) f.sign f.sign :=
    reads_fixed _ .eightBit (by decide) 4 f.sign (by rw [SolidFront.sign]; cases f.big <;> rfl) (by norm_num)
  refine Reads.rbind_all ht ?_
  rw [hs]
  exact Reads.rbind_all (reads_solid_materials f.big f.materials h.count h.materials) (Reads.rbind_all (reads_solid_text f.big f.name h.name)
    (Reads.rbind_all (reads_raw_n 4 f.unknown1 h.unknown1 (by norm_num)) (Reads.rbind_all
      (reads_solid_counted f.big _ (solidCounted f.big (solidMesh f.big)) f.geosets h.geosets fun g hg =>
        reads_solid_counted f.big _ (solidMesh f.big) g (h.sets g hg).1 fun m hm => reads_solid_mesh f.big m ((h.sets g hg).2 m hm))
      (Reads.rbind_all (reads_raw_n 4 f.unknown2 h.unknown2 (by norm_num)) (ReadsAll.rmap he fun t => Model.mk f.sign f.materials f.name f.unknown1 f.geosets f.unknown2 t)))))

theorem ReadsAll.whole {α : Type} {r : Rd α} {v : α} {bs : Bytes} (h : ReadsAll r v bs) (s : InputStream) (hs : stringInputStream bs = .ok s) :
    r s (8 * bs.length) 0 = .ok (v, 8 * bs.length) := by
  have := h bs s hs 0 (by simp)
  simpa using this

/-- **C198** A model without nodes is told whole, in both orders of bytes: all materials, sets, meshes, vertices and faces, the four numbers at the end, and what is left of the file. Missing: models with nodes, which are not told (`C198_nodes`). -/
theorem C198_model_partial (f : SolidFront) (h : f.Good) (numbers : List Nat) (hn : Solid 4 numbers) (rest : Bytes) (s : InputStream)
    (hs : stringInputStream (f.bytes (solidWord f.big 0 ++ (solidWords f.big numbers ++ rest))) = .ok s) :
    model s (8 * (f.bytes (solidWord f.big 0 ++ (solidWords f.big numbers ++ rest))).length) 0 =
      .ok (f.told (.told [] numbers rest), 8 * (f.bytes (solidWord f.big 0 ++ (solidWords f.big numbers ++ rest))).length) := by
  refine ReadsAll.whole (solid_front f h _ _ ?_) s hs
  have hl : ReadsAll (lastFields (solidEndian f.big)) (.told [] numbers rest) (solidWord f.big 0 ++ (solidWords f.big numbers ++ rest)) := by
    have h0 := reads_solid_counted f.big (node (solidEndian f.big)) (fun _ => []) [] (by norm_num) (by simp)
    rw [solidCounted, List.flatMap_nil, List.append_nil] at h0
    exact Reads.rbind_all h0 (Reads.rbind_all (reads_solid_words f.big 4 numbers hn) (ReadsAll.rmap (reads_pifv_content rest) fun r => Ending.told [] numbers r))
  intro data s hs k hp
  rw [ending, hl data s hs k hp]

theorem node_refused (e : Endian) (s : InputStream) (stop addr : Nat) : ∃ err, node e s stop addr = .error err := by
  rw [node, Rd.bind]
  cases text32 e s stop addr with
  | error x => exact ⟨x, rfl⟩
  | ok p => exact ⟨.assertion, rfl⟩

/-- **C198** A model with a node is never told whole: whatever comes after the count of the nodes, all bytes from the count on are told as one raw field, for the pattern of the padding is a text and not bytes. -/
theorem C198_nodes (f : SolidFront) (h : f.Good) (count : Nat) (h0 : count ≠ 0) (hc : count < 2 ^ 32) (after : Bytes) (s : InputStream)
    (hs : stringInputStream (f.bytes (solidWord f.big count ++ after)) = .ok s) :
    model s (8 * (f.bytes (solidWord f.big count ++ after)).length) 0 =
      .ok (f.told (.cut (solidWord f.big count ++ after)), 8 * (f.bytes (solidWord f.big count ++ after)).length) := by
  refine ReadsAll.whole (solid_front f h _ _ ?_) s hs
  clear hs s
  intro data s hs k hp
  have hw := reads_solid_word f.big count hc data s hs k (8 * (k + (solidWord f.big count ++ after).length)) (prefix_left hp) (by rw [List.length_append]; omega)
  obtain ⟨n, rfl⟩ := Nat.exists_eq_succ_of_ne_zero h0
  have hl : ∃ err, lastFields (solidEndian f.big) s (8 * (k + (solidWord f.big (n + 1) ++ after).length)) (8 * k) = .error err := by
    obtain ⟨err, he⟩ := node_refused (solidEndian f.big) s (8 * (k + (solidWord f.big (n + 1) ++ after).length)) (8 * (k + (solidWord f.big (n + 1)).length))
    refine ⟨err, ?_⟩
    have ht : Rd.times (node (solidEndian f.big)) (n + 1) s (8 * (k + (solidWord f.big (n + 1) ++ after).length)) (8 * (k + (solidWord f.big (n + 1)).length)) = .error err := by
      show Rd.bind _ _ s _ _ = _
      rw [Rd.bind, he]
    rw [lastFields, Rd.bind, counted, Rd.bind, hw]
    dsimp only
    rw [ht]
  obtain ⟨err, he⟩ := hl
  rw [ending, he]
  exact ReadsAll.rmap (reads_pifv_content (solidWord f.big (n + 1) ++ after)) Ending.cut data s hs k hp

/-- A face of three vertices with textures and a material. -/
def someFace : Face := ⟨[1, 0, 4, 3, 3, 3, 0, 1, 1, 0, 0, 0, 0, 0, 0, 0, 0, 0, 0x3F800000], [0, 1, 2], [2, 1, 0], some 7⟩

/-- A mesh of three vertices, one place in the texture and two faces, one of them bare. -/
def someMesh : Mesh := ⟨List.replicate 32 0x41, [0, 4, 3, 3, 3, 1, 2], [[1, 2, 3], [4, 5, 6], [7, 8, 9]], [[10, 11]], [1, 2, 3], [4, 5, 6],
  [someFace, ⟨List.replicate 19 0, [], [], none⟩], [[0, 0, 1], [0, 1, 0], [1, 0, 0]], [1, 2, 3, 4, 5, 6, 7, 8, 9]⟩

theorem some_face : SolidFace someFace where
  head := by unfold Solid; decide
  vertices := by unfold Solid; decide
  textures := by rw [if_neg (by decide)]; unfold Solid; decide
  material := by rw [if_neg (by decide)]; exact ⟨7, by norm_num, rfl⟩

theorem some_mesh : SolidMesh someMesh where
  name := by decide
  head := by unfold Solid; decide
  vertices := by unfold SolidRows Solid; decide
  maps := by unfold SolidRows Solid; decide
  lights := by unfold Solid; decide
  unknown := by unfold Solid; decide
  count := by decide
  faces := by
    intro f hf
    rcases List.mem_cons.mp hf with rfl | hf
    · exact some_face
    · rw [List.mem_singleton] at hf
      subst hf
      exact ⟨by unfold Solid; decide, by unfold Solid; decide, by rw [if_pos (by decide)], by rw [if_pos (by decide)]⟩
  normals := by unfold SolidRows Solid; decide
  tail := by unfold Solid; decide

/-- A file of two materials and two sets, the second of which has a mesh. -/
def someFront (big : Bool) : SolidFront := ⟨big, [List.replicate 32 0x42, List.replicate 32 0x43], List.replicate 32 0x44, [1, 2, 3, 4], [[], [someMesh]], [5, 6, 7, 8]⟩

theorem some_front (big : Bool) : (someFront big).Good where
  count := by simp [someFront]
  materials := by simp [someFront]
  name := by simp [someFront]
  unknown1 := rfl
  geosets := by simp [someFront]
  sets := by
    intro g hg
    rcases List.mem_cons.mp hg with rfl | hg
    · simp
    · rw [List.mem_singleton] at hg
      subst hg
      exact ⟨by simp, fun m hm => by rw [List.mem_singleton] at hm; subst hm; exact some_mesh⟩
  unknown2 := rfl

example (big : Bool) (s : InputStream) (hs : stringInputStream ((someFront big).bytes (solidWord big 0 ++ (solidWords big [1, 2, 3, 4] ++ [9, 9]))) = .ok s) :
    (model s (8 * ((someFront big).bytes (solidWord big 0 ++ (solidWords big [1, 2, 3, 4] ++ [9, 9]))).length) 0).map (fun r => (r.1.geosets, r.1.ending)) =
      .ok ([[], [someMesh]], .told [] [1, 2, 3, 4] [9, 9]) := by
  have := C198_model_partial (someFront big) (some_front big) [1, 2, 3, 4] (by unfold Solid; decide) [9, 9] s hs
  exact congrArg (Except.map fun r => (r.1.geosets, r.1.ending)) this

/-- Bytes after the count are told as they are. -/
example (big : Bool) (s : InputStream) (hs : stringInputStream ((someFront big).bytes (solidWord big 1 ++ List.replicate 20 0xCC)) = .ok s) :
    (model s (8 * ((someFront big).bytes (solidWord big 1 ++ List.replicate 20 0xCC)).length) 0).map (fun r => r.1.ending) =
      .ok (.cut (solidWord big 1 ++ List.replicate 20 0xCC)) := by
  have := C198_nodes (someFront big) (some_front big) 1 (by norm_num) (by norm_num) (List.replicate 20 0xCC) s hs
  exact congrArg (Except.map fun r => r.1.ending) this

end Hachoir.Props

import Verif.Formats.Prc
import Verif.Props.Ttf
import Verif.Props.Keyring

/-!
# C177: Palm resource files
-/

namespace Hachoir.Props
open Hachoir Hachoir.Stream Hachoir.Field Hachoir.Formats Hachoir.Formats.Prc Spec _root_.Props

/-! ### Specification -/

def palmResource (r : Resource) : Bytes := r.name ++ (beBytes 2 r.id ++ beBytes 4 r.offset)

def PalmFits (r : Resource) : Prop := r.name.length = 4 ∧ r.id < 65536 ∧ r.offset < 2 ^ 32

def palmWidths : List Nat := [2, 2, 4, 4, 4, 4, 4, 4, 4, 4, 4, 4]

/-- The header, the table of resources and two bytes. -/
def palmHead (f : Prc.File) : Bytes :=
  f.header.name ++ (bigBytes palmWidths f.header.numbers ++ (beBytes 2 f.resources.length ++ (f.resources.flatMap palmResource ++ beBytes 2 f.placeholder)))

structure PalmHead (f : Prc.File) : Prop where
  name : f.header.name.length = 32
  numbers : BigFit palmWidths f.header.numbers
  count : f.resources.length < 65536
  resources : ∀ r ∈ f.resources, PalmFits r
  placeholder : f.placeholder < 65536

/-- The parts of the file from offset to offset, the last up to its end. -/
def pieces (data : Bytes) : List Nat → List Bytes
  | [] => []
  | [o] => [data.drop o]
  | o :: p :: l => (data.drop o).take (p - o) :: pieces data (p :: l)

/-- Offsets in the file, one behind the other. -/
def Increasing (total : Nat) : List Nat → Prop
  | [] => True
  | [o] => o < total
  | o :: p :: l => o < p ∧ Increasing total (p :: l)

/-! ### Proofs -/

theorem increasing_lt (total : Nat) : ∀ (l : List Nat) (o : Nat), Increasing total (o :: l) → o < total
  | [], _, h => h
  | p :: l, _, h => Nat.lt_trans h.1 (increasing_lt total l p h.2)

theorem at_palm_parts (data : Bytes) : ∀ (l : List Nat) (o : Nat), Increasing data.length (o :: l) →
    AtPlace data (Rd.each part (sizes data.length (o :: l))) (pieces data (o :: l)) o data.length
  | [], o, h => by
    have h : o < data.length := h
    have hl : (data.drop o).length = data.length - o := List.length_drop
    have e : part ((data.length : Int) - o) = Rd.raw (data.length - o) := by
      rw [part, if_neg (by omega)]
      congr 1
      omega
    have := (reads_raw_n (data.length - o) (data.drop o) hl (by omega)).at (data := data) (a := o) (List.prefix_refl _) (by omega)
    rw [hl, show o + (data.length - o) = data.length by omega, ← e] at this
    exact AtPlace.map (f := fun x => [x]) this
  | p :: l, o, h => by
    have h1 := increasing_lt _ _ _ h.2
    have h0 := h.1
    have hl : ((data.drop o).take (p - o)).length = p - o := by
      rw [List.length_take, List.length_drop]
      omega
    have e : part ((p : Int) - o) = Rd.raw (p - o) := by
      rw [part, if_neg (by omega)]
      congr 1
      omega
    have ih := at_palm_parts data l p h.2
    have := (reads_raw_n (p - o) ((data.drop o).take (p - o)) hl (by omega)).at (data := data) (a := o) (List.take_prefix _ _) (by omega)
    rw [hl, show o + (p - o) = p by omega, ← e] at this
    exact AtPlace.bind (f := fun x => Rd.bind (Rd.each part (sizes data.length (p :: l))) fun as => Rd.pure (x :: as)) this
      (AtPlace.map (f := fun as => (data.drop o).take (p - o) :: as) ih)

theorem reads_palm_resource (r : Resource) (h : PalmFits r) : Reads resource r (palmResource r) :=
  Reads.bind (reads_fixed .big .eightBit (by decide) 4 r.name h.1 (by decide)) (Reads.bind (reads_int_be 2 r.id (by decide) h.2.1)
    (Reads.map (f := fun o => (⟨r.name, r.id, o⟩ : Resource)) (reads_gimp_int r.offset h.2.2)))

theorem palm_length (f : Prc.File) (h : PalmHead f) : (palmHead f).length = 80 + 10 * f.resources.length := by
  have hr : (f.resources.flatMap palmResource).length = 10 * f.resources.length := by
    have := h.resources
    generalize f.resources = l at this
    induction l with
    | nil => rfl
    | cons r l ih =>
      rw [List.flatMap_cons, List.length_append, ih fun x hx => this x (List.mem_cons_of_mem _ hx), List.length_cons]
      have := (this r (List.mem_cons_self ..)).1
      simp only [palmResource, List.length_append, beBytes_length, this]
      omega
  simp only [palmHead, List.length_append, beBytes_length, h.name, big_length _ _ h.numbers, hr]
  simp [palmWidths]
  omega

/-- The head, then whatever is read of the parts. -/
theorem at_palm (data : Bytes) (f : Prc.File) (h : PalmHead f) (hp : palmHead f <+: data) (e : Nat)
    (hq : AtPlace data (Prc.parts data.length f.resources) f.parts (80 + 10 * f.resources.length) e) : AtPlace data Prc.file f 0 e := by
  obtain ⟨⟨name, ns⟩, rs, p, ps⟩ := f
  have hlen := palm_length _ h
  obtain ⟨h1, h2, h3, h4, h5⟩ := h
  simp only at *
  refine at_then (ys := bigBytes palmWidths ns ++ (beBytes 2 rs.length ++ (rs.flatMap palmResource ++ beBytes 2 p))) (reads_fixed .big .eightBit (by decide) 32 name h1 (by decide)) (by simpa [palmHead] using hp) (Nat.zero_le _) fun hp l => ?_
  refine at_then (reads_big palmWidths ns h2) hp l fun hp l => ?_
  refine at_then (reads_int_be 2 rs.length (by decide) h3) hp l fun hp l => ?_
  refine at_then (reads_list resource palmResource rs fun r hr => reads_palm_resource r (h4 r hr)) hp l fun hp l => ?_
  refine at_then (ys := []) (reads_int_be 2 p (by decide) h5) (by simpa using hp) l fun hp l => ?_
  refine AtPlace.bind (at_limit data _) ?_
  rw [Nat.mul_div_cancel_left _ (by decide)]
  refine AtPlace.map (f := fun ps => (⟨⟨name, ns⟩, rs, p, ps⟩ : Prc.File)) ?_
  have : 0 + name.length + (bigBytes palmWidths ns).length + (beBytes 2 rs.length).length + (rs.flatMap palmResource).length + (beBytes 2 p).length = 80 + 10 * rs.length := by
    rw [← hlen]
    simp only [palmHead, List.length_append]
    omega
  rw [this]
  exact hq

/-- **C177**: if the first resource follows the table, every resource is the bytes of the file from its offset up to the next, and the last up to the end. -/
theorem C177_file (data : Bytes) (f : Prc.File) (h : PalmHead f) (hp : palmHead f <+: data) (r : Resource) (rs : List Resource) (hr : f.resources = r :: rs)
    (h0 : r.offset = 80 + 10 * f.resources.length) (hi : Increasing data.length (f.resources.map (·.offset))) (hf : f.parts = pieces data (f.resources.map (·.offset))) :
    AtPlace data Prc.file f 0 data.length := by
  refine at_palm data f h hp data.length ?_
  rw [hf, ← h0, Prc.parts, if_neg (by rw [hr]; simp)]
  rw [hr, List.map_cons] at hi ⊢
  exact at_palm_parts data _ _ hi

/-- **C177** (disagreement): if the only resource is `g` bytes behind the table, what is shown begins before it and lacks its last `g` bytes. -/
theorem C177_gap (data : Bytes) (f : Prc.File) (h : PalmHead f) (hp : palmHead f <+: data) (r : Resource) (g : Nat) (hr : f.resources = [r]) (h0 : r.offset = 90 + g) (hi : r.offset < data.length)
    (hf : f.parts = [(data.drop 90).take (data.length - r.offset)]) : AtPlace data Prc.file f 0 (data.length - g) := by
  refine at_palm data f h hp _ ?_
  rw [hf, Prc.parts, if_neg (by rw [hr]; simp), hr]
  have hl : ((data.drop 90).take (data.length - r.offset)).length = data.length - r.offset := by
    rw [List.length_take, List.length_drop]
    omega
  have e : part ((data.length : Int) - r.offset) = Rd.raw (data.length - r.offset) := by
    rw [part, if_neg (by omega)]
    congr 1
    omega
  have := (reads_raw_n (data.length - r.offset) _ hl (by omega)).at (data := data) (a := 90) (List.take_prefix _ _) (by omega)
  rw [hl, show 90 + (data.length - r.offset) = data.length - g by omega, ← e] at this
  exact AtPlace.map (f := fun x => [x]) this

/-- **C177** (disagreement): no file is ever taken for a Palm resource file. -/
theorem C177_never (f : Prc.File) : Prc.valid f = false := rfl

/-- **C177**: a file without resources, or with offsets that go back, cannot be read. -/
theorem C177_back (total : Nat) (a b : Resource) (l : List Resource) (h : b.offset ≤ a.offset) (s : InputStream) (stop k : Nat) :
    Prc.parts total [] s stop k = .error .missingField ∧ Prc.parts total (a :: b :: l) s stop k = .error .field := by
  refine ⟨rfl, ?_⟩
  rw [Prc.parts, if_neg (by simp)]
  show Rd.bind (part ((b.offset : Int) - a.offset)) _ s stop k = _
  rw [Rd.bind, part, if_pos (by omega)]
  rfl

/-! ### Example -/

def palmFile : Prc.File :=
  ⟨⟨List.replicate 32 65, [0, 1, 5, 5, 0, 0, 0, 0, 7, 8, 0, 0]⟩, [⟨[99, 111, 100, 101], 1, 100⟩, ⟨[100, 97, 116, 97], 0, 102⟩], 0, [[1, 2], [3, 4, 5]]⟩

def palmData : Bytes := palmHead palmFile ++ [1, 2, 3, 4, 5]

theorem palm_head : PalmHead palmFile where
  name := rfl
  numbers := by simp [palmFile, palmWidths, BigFit]
  count := by decide
  resources := by simp [palmFile, PalmFits]
  placeholder := by decide

example : AtPlace palmData Prc.file palmFile 0 palmData.length :=
  C177_file palmData palmFile palm_head ⟨_, rfl⟩ ⟨[99, 111, 100, 101], 1, 100⟩ [⟨[100, 97, 116, 97], 0, 102⟩] rfl rfl ⟨by decide, by show 102 < _; decide +kernel⟩ (by decide +kernel)

end Hachoir.Props

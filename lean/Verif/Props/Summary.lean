import Verif.Formats.Summary
import Verif.Props.Flac
import Verif.Props.Packed
import Verif.Props.Gaps
import Verif.Props.Tools

/-!
# C166: properties of Office documents
-/

namespace Hachoir.Props
open Hachoir Hachoir.Stream Hachoir.Field Hachoir.Formats Hachoir.Formats.Summary _root_.Props

/-! ### Specification: how properties are written -/

/-- The number of the type of a value, as the format of property sets has it. -/
def propType : Summary.Value → Nat
  | .num n => if n < 2 ^ 16 then 2 else 3
  | .flag _ => 11
  | .text _ _ => 30
  | .wide _ => 31
  | .time _ => 64
  | .span _ => 64

/-- The bytes of a value behind its type. -/
def propBytes : Summary.Value → Bytes
  | .num n => if n < 2 ^ 16 then leBytes 2 n else leBytes 4 n
  | .flag b => [if b then 255 else 0]
  | .text _ b => leBytes 4 b.length ++ b
  | .wide b => leBytes 4 (b.length / 2) ++ b
  | .time n => leBytes 8 n
  | .span n => leBytes 8 n

/-- Values that can be written: a wide text is not empty and has less than 65536 bytes (the limit of text fields). -/
def PropGood (cs : Option String) (editing : Bool) : Summary.Value → Prop
  | .num n => n < 2 ^ 32
  | .flag _ => True
  | .text c b => c = cs ∧ b.length < 2 ^ 32
  | .wide b => 2 ∣ b.length ∧ 0 < b.length ∧ b.length < 65536
  | .time n => n < 2 ^ 64 ∧ editing = false
  | .span n => n < 2 ^ 64 ∧ editing = true

/-- The bytes of a property: type, vector flag, value or number of values and values.  A vector has values of one type. -/
def propertyBytes : Content → Bytes
  | .nothing => leBytes 4 0
  | .value v => leBytes 4 (propType v) ++ propBytes v
  | .items l => leBytes 4 (4096 + propType (l.headD (.num 0))) ++ (leBytes 4 l.length ++ l.flatMap propBytes)

/-- Properties that can be written. -/
def SummaryContentGood (cs : Option String) (editing : Bool) : Content → Prop
  | .nothing => True
  | .value v => PropGood cs editing v
  | .items l => l.length < 2 ^ 32 ∧ ∀ v ∈ l, PropGood cs editing v ∧ propType v = propType (l.headD (.num 0))

/-! ### Reading one property -/

theorem reads_pascal32 (b : Bytes) (hb : b.length < 2 ^ 32) : Reads (Rd.text .little .pascal32 .eightBit none) b (leBytes 4 b.length ++ b) := by
  intro data s hs k stop hp _
  obtain ⟨rest, hr⟩ := hp
  have hl := leBytes_spec 4 b.length
  obtain ⟨h1, h2⟩ := C50_pascal_partial hs .little (by simp) k .pascal32 4 rfl (leBytes 4 b.length) b rest (leBytes_length 4 _)
    (by rw [← hr, List.append_assoc]) (hl.2 (by omega)) .eightBit (by simp)
  rw [Rd.text, h1]
  simp only []
  rw [h2]
  simp only [Except.ok.injEq, Prod.mk.injEq, true_and, List.length_append, leBytes_length]
  omega

/-- The class of a value. -/
def propKind : Summary.Value → Kind
  | .num n => if n < 2 ^ 16 then .short else .long
  | .flag _ => .bool
  | .text _ _ => .text
  | .wide _ => .wide
  | .time _ => .time
  | .span _ => .time

theorem handler_kind (v : Summary.Value) : handlerOf (propType v) = some (propKind v) := by
  cases v with
  | num n =>
    by_cases h : n < 2 ^ 16
    · rw [propType, propKind, if_pos h, if_pos h]; rfl
    · rw [propType, propKind, if_neg h, if_neg h]; rfl
  | _ => rfl

theorem type_kind (v w : Summary.Value) (h : propType v = propType w) : propKind v = propKind w := by
  have := handler_kind v
  rw [h, handler_kind w] at this
  injection this with this
  exact this.symm

theorem reads_value (cs : Option String) (editing : Bool) (v : Summary.Value) (h : PropGood cs editing v) :
    Reads (valueOf cs editing (propKind v)) v (propBytes v) := by
  cases v with
  | num n =>
    by_cases hn : n < 2 ^ 16
    · rw [propKind, propBytes, if_pos hn, if_pos hn]
      exact Reads.map (f := fun n => Summary.Value.num n) (reads_int_le 2 n (by omega) (by omega))
    · rw [propKind, propBytes, if_neg hn, if_neg hn]
      exact Reads.map (f := fun n => Summary.Value.num n) (reads_int_le 4 n (by omega) (by have : n < 2 ^ 32 := h; omega))
  | flag b =>
    cases b
    · exact Reads.of_eq (Reads.map (f := fun n : Int => Summary.Value.flag (decide (n = -1))) (reads_signed_le 1 0 (by omega) (by decide) (by decide))) rfl rfl
    · exact Reads.of_eq (Reads.map (f := fun n : Int => Summary.Value.flag (decide (n = -1))) (reads_signed_le 1 (-1) (by omega) (by decide) (by decide))) rfl rfl
  | text c b =>
    obtain ⟨rfl, hb⟩ := h
    exact Reads.map (f := fun b => Summary.Value.text c b) (reads_pascal32 b hb)
  | wide b =>
    obtain ⟨h1, h2, h3⟩ := h
    have e : 2 * (b.length / 2) = b.length := by omega
    refine Reads.bind (reads_int_le 4 (b.length / 2) (by omega) (by omega)) ?_
    refine Reads.map (f := fun b => Summary.Value.wide b) ?_
    rw [e]
    exact reads_fixed .little .utf16le (by decide) b.length b rfl (by omega)
  | time n =>
    obtain ⟨h1, h2⟩ := h
    subst h2
    exact Reads.of_eq (Reads.map (f := fun n => if false = true then Summary.Value.span n else .time n) (reads_int_le 8 n (by omega) (by omega))) rfl rfl
  | span n =>
    obtain ⟨h1, h2⟩ := h
    subst h2
    exact Reads.of_eq (Reads.map (f := fun n => if true = true then Summary.Value.span n else .time n) (reads_int_le 8 n (by omega) (by omega))) rfl rfl

theorem type_lt (v : Summary.Value) : propType v < 2 ^ 12 := by
  cases v <;> simp only [propType] <;> try split
  all_goals omega

theorem reads_type (t vec : Nat) (ht : t < 2 ^ 12) (hv : vec < 2) : Reads (Rd.bits .little [12, 1, 19]) [t, vec, 0] (leBytes 4 (4096 * vec + t)) := by
  have := reads_packed_le 4 [12, 1, 19] [t, vec, 0] (by omega) rfl (by simp [Fit]; omega)
  refine Reads.of_eq this rfl (congrArg (leBytes 4) ?_)
  simp only [joinLE]
  omega

/-- **C166.**  A property is read as it was written: nothing, one value or a vector of values. -/
theorem C166_content (cs : Option String) (editing : Bool) (c : Content) (h : SummaryContentGood cs editing c) :
    Reads (content cs editing) c (propertyBytes c) := by
  cases c with
  | nothing =>
    refine Reads.of_eq (Reads.bind (ys := []) (reads_type 0 0 (by omega) (by omega)) ?_) rfl (List.append_nil _)
    exact reads_pure _
  | value v =>
    refine Reads.of_eq (Reads.bind (ys := propBytes v) (reads_type (propType v) 0 (type_lt v) (by omega)) ?_) rfl (by rw [propertyBytes, Nat.mul_zero, Nat.zero_add])
    show Reads (held cs editing false (handlerOf (propType v))) _ _
    rw [handler_kind]
    exact Reads.map (f := fun v => Content.value v) (reads_value cs editing v h)
  | items l =>
    obtain ⟨h1, h2⟩ := h
    refine Reads.of_eq (Reads.bind (ys := leBytes 4 l.length ++ l.flatMap propBytes) (reads_type (propType (l.headD (.num 0))) 1 (type_lt _) (by omega)) ?_) rfl (by rw [propertyBytes])
    show Reads (held cs editing true (handlerOf (propType (l.headD (.num 0))))) _ _
    rw [handler_kind]
    refine Reads.bind (reads_int_le 4 l.length (by omega) (by omega)) ?_
    refine Reads.map (f := fun l => Content.items l) ?_
    refine reads_times _ propBytes l fun v hv => ?_
    obtain ⟨h3, h4⟩ := h2 v hv
    rw [← type_kind v _ h4]
    exact reads_value cs editing v h3

example : SummaryContentGood none false (.items [.num 3, .num 70]) := by
  refine ⟨by decide, fun v hv => ?_⟩
  simp only [List.mem_cons, List.not_mem_nil, or_false] at hv
  rcases hv with rfl | rfl <;> exact ⟨by show _ < 2 ^ 32; omega, rfl⟩

/-- **C166.**  A number may also be written in 4 bytes when 2 would do. -/
theorem C166_long (cs : Option String) (editing : Bool) (n : Nat) (h : n < 2 ^ 32) :
    Reads (content cs editing) (.value (.num n)) (leBytes 4 3 ++ leBytes 4 n) := by
  refine Reads.bind (reads_type 3 0 (by omega) (by omega)) ?_
  exact Reads.map (f := fun v => Content.value v) (Reads.map (f := fun n => Summary.Value.num n) (reads_int_le 4 n (by omega) (by omega)))

/-- **C166.**  Of a property of any other type only the type is read. -/
theorem C166_nothing (cs : Option String) (editing : Bool) (t vec : Nat) (ht : t < 2 ^ 12) (hv : vec < 2) (h : t ∉ [1, 2, 3, 4, 5, 11, 12, 30, 31, 64, 65, 71]) :
    Reads (content cs editing) .nothing (leBytes 4 (4096 * vec + t)) := by
  refine Reads.of_eq (Reads.bind (ys := []) (reads_type t vec ht hv) ?_) rfl (List.append_nil _)
  show Reads (held cs editing _ (handlerOf t)) _ _
  have : handlerOf t = none := by
    simp only [List.mem_cons, List.not_mem_nil, or_false, not_or] at h
    simp [handlerOf, h]
  rw [this]
  exact reads_pure _

/-! ### Sections -/

/-- The charsets of code codePages. -/
def codePages : List (Nat × String) :=
  [(874, "CP874"), (1250, "WINDOWS-1250"), (1251, "WINDOWS-1251"), (1252, "WINDOWS-1252"), (1253, "WINDOWS-1253"), (1254, "WINDOWS-1254"),
    (1255, "WINDOWS-1255"), (1256, "WINDOWS-1256"), (1257, "WINDOWS-1257"), (1258, "WINDOWS-1258"), (10000, "MacRoman"), (65001, "UTF-8")]

/-- The charset a property tells: property 1 is the code page. -/
def pageOf (p : Property) : Option String :=
  match p.content with
  | .value (.num n) => if p.id = 1 then codePages.lookup n else none
  | _ => none

/-- The charset for texts behind these properties: the first one told. -/
def charsetAfter (cs : Option String) (l : List Property) : Option String := cs.or (l.findSome? pageOf)

/-- The property is written at its place in the section that begins at `base`. -/
structure PropertyAt (data : Bytes) (doc : Bool) (base size : Nat) (cs : Option String) (p : Property) : Prop where
  id : p.id < 2 ^ 32
  addr : p.addr < 2 ^ 32
  len : p.size = (propertyBytes p.content).length
  within : p.addr + p.size ≤ size
  inData : base + p.addr ≤ data.length
  bytes : propertyBytes p.content <+: data.drop (base + p.addr)
  good : SummaryContentGood cs (decide (doc = false ∧ p.id = 10)) p.content

theorem lookup_page (n : Nat) : codepageCharset n = codePages.lookup n := by
  have key : ∀ (a : Nat) (x : String) (r : List (Nat × String)), List.lookup n ((a, x) :: r) = if n = a then some x else List.lookup n r := by
    intro a x r
    rw [List.lookup_cons]
    by_cases h : n = a
    · simp [h]
    · rw [show (n == a) = false by simpa using h, if_neg h]
  simp only [codePages, key, codepageCharset, List.lookup_nil]

theorem next_charset (cs : Option String) (p : Property) : nextCharset cs p.id p.content = cs.or (pageOf p) := by
  cases cs with
  | some s => rfl
  | none =>
    unfold nextCharset pageOf
    simp only [Option.none_or]
    by_cases h : p.id = 1
    · rw [if_pos h]
      split
      · rename_i n e
        rw [e]
        simp only [if_pos h, lookup_page]
      · rename_i e
        split
        · rename_i n e'
          exact absurd e' (e n)
        · rfl
    · rw [if_neg h]
      split <;> simp [h]

theorem charset_cons (cs : Option String) (p : Property) (l : List Property) : charsetAfter cs (p :: l) = charsetAfter (cs.or (pageOf p)) l := by
  unfold charsetAfter
  rw [List.findSome?_cons, Option.or_assoc]
  cases pageOf p <;> rfl

theorem editing_eq (doc : Bool) (id : Nat) : isEditing doc id = decide (doc = false ∧ id = 10) := by
  cases doc
  · simp only [isEditing, Bool.not_false, Bool.true_and, true_and]
    rfl
  · simp [isEditing]

theorem at_property (data : Bytes) (doc : Bool) (base size a : Nat) (cs : Option String) (p : Property) (h : PropertyAt data doc base size cs p) :
    AtPlace data (property doc base size cs ⟨p.id, p.addr⟩) p a (base + p.addr + p.size) := by
  unfold property
  refine AtPlace.bind (at_jump data a (base + p.addr)) ?_
  refine AtPlace.bind (f := fun c => Rd.place >>= fun e => if size < e / 8 - base then Rd.fail .notImplemented else (pure (⟨p.id, p.addr, e / 8 - (base + p.addr), c⟩ : Property) : Rd Property)) ((C166_content cs (isEditing doc p.id) p.content (by rw [editing_eq]; exact h.good)).at h.bytes h.inData) ?_
  rw [← h.len]
  intro s hs
  show (if size < 8 * (base + p.addr + p.size) / 8 - base then (Rd.fail .notImplemented : Rd Property) else pure ⟨p.id, p.addr, 8 * (base + p.addr + p.size) / 8 - (base + p.addr), p.content⟩) s _ _ = _
  rw [if_neg (by have := h.within; omega), show 8 * (base + p.addr + p.size) / 8 - (base + p.addr) = p.size by omega]
  rfl

theorem at_summary_properties (data : Bytes) (doc : Bool) (base size : Nat) : ∀ (l : List Property) (cs : Option String) (a : Nat),
    (∀ i p, l[i]? = some p → PropertyAt data doc base size (charsetAfter cs (l.take i)) p) →
    ∃ b, AtPlace data (properties doc base size cs (l.map fun p => ⟨p.id, p.addr⟩)) (l, charsetAfter cs l) a b
  | [], cs, a, _ => ⟨a, by rw [show charsetAfter cs [] = cs by simp [charsetAfter]]; exact at_pure _ _ _⟩
  | p :: l, cs, a, h => by
    have h0 := h 0 p rfl
    rw [List.take_zero, show charsetAfter cs [] = cs by simp [charsetAfter]] at h0
    obtain ⟨b, hb⟩ := at_summary_properties data doc base size l (cs.or (pageOf p)) (base + p.addr + p.size) fun i q hq => by
      have := h (i + 1) q (by simpa using hq)
      rwa [List.take_succ_cons, charset_cons] at this
    refine ⟨b, AtPlace.bind (at_property data doc base size a cs p h0) ?_⟩
    rw [next_charset]
    have := AtPlace.map (f := fun r : List Property × Option String => (p :: r.1, r.2)) hb
    rw [← charset_cons] at this
    exact this

/-- The bytes at the beginning of a section: its size, the number of properties, number and place of each. -/
def sectionHead (s : Section) : Bytes :=
  leBytes 4 s.size ++ (leBytes 4 s.props.length ++ s.props.flatMap fun p => leBytes 4 p.id ++ leBytes 4 p.addr)

/-- **C166.**  A section is read as it was written, wherever in it the properties are: each has its number, its place and size and what it
holds, and texts have the charset of the first code page told before them. -/
theorem C166_section (data : Bytes) (doc : Bool) (base : Nat) (cs : Option String) (s : Section) (hs : s.size < 2 ^ 32) (hn : s.props.length < 2 ^ 32)
    (hb : base ≤ data.length) (hp : sectionHead s <+: data.drop base)
    (h : ∀ i p, s.props[i]? = some p → PropertyAt data doc base s.size (charsetAfter cs (s.props.take i)) p) :
    ∃ b, AtPlace data (Summary.section doc base cs) (s, charsetAfter cs s.props) base b := by
  have hi : ∀ p ∈ s.props, p.id < 2 ^ 32 ∧ p.addr < 2 ^ 32 := fun p hm => by
    obtain ⟨i, hi⟩ := List.mem_iff_getElem?.1 hm
    exact ⟨(h i p hi).id, (h i p hi).addr⟩
  have r3 : Reads (Rd.times index s.props.length) (s.props.map fun p => (⟨p.id, p.addr⟩ : Index)) (s.props.flatMap fun p => leBytes 4 p.id ++ leBytes 4 p.addr) := by
    refine reads_times_map index (fun p : Property => (⟨p.id, p.addr⟩ : Index)) (fun p => leBytes 4 p.id ++ leBytes 4 p.addr) s.props fun p hm => ?_
    obtain ⟨h1, h2⟩ := hi p hm
    refine Reads.bind (reads_int_le 4 p.id (by omega) (by omega)) ?_
    exact Reads.map (f := fun o => (⟨p.id, o⟩ : Index)) (reads_int_le 4 p.addr (by omega) (by omega))
  obtain ⟨b, hb'⟩ := at_summary_properties data doc base s.size s.props cs (base + (sectionHead s).length) h
  have l1 : (leBytes 4 s.size).length = 4 := leBytes_length 4 _
  have l2 : (leBytes 4 s.props.length).length = 4 := leBytes_length 4 _
  have hl := hp.length_le
  rw [List.length_drop] at hl
  unfold sectionHead at hp hb' hl
  have p2 : (leBytes 4 s.props.length ++ s.props.flatMap fun p => leBytes 4 p.id ++ leBytes 4 p.addr) <+: data.drop (base + 4) := by
    have := drop_prefix hp
    rwa [l1] at this
  have p3 : (s.props.flatMap fun p => leBytes 4 p.id ++ leBytes 4 p.addr) <+: data.drop (base + 4 + 4) := by
    have := drop_prefix p2
    rwa [l2] at this
  simp only [List.length_append, l1, l2] at hl hb'
  have a1 := (reads_int_le 4 s.size (by omega) (by omega)).at (prefix_left hp) hb
  have a2 := (reads_int_le 4 s.props.length (by omega) (by omega)).at (prefix_left p2) (by omega)
  have a3 := r3.at p3 (by omega)
  rw [l1] at a1
  rw [l2] at a2
  rw [← Nat.add_assoc, ← Nat.add_assoc] at hb'
  refine ⟨b, AtPlace.bind a1 (AtPlace.bind a2 (AtPlace.bind a3 ?_))⟩
  exact AtPlace.map (f := fun r : List Property × Option String => ((⟨s.size, r.1⟩ : Section), r.2)) hb'

/-! ### Whole summaries -/

/-- A section is written at a place. -/
structure SectionAt (data : Bytes) (doc : Bool) (base : Nat) (cs : Option String) (s : Section) : Prop where
  size : s.size < 2 ^ 32
  count : s.props.length < 2 ^ 32
  inData : base ≤ data.length
  head : sectionHead s <+: data.drop base
  props : ∀ i p, s.props[i]? = some p → PropertyAt data doc base s.size (charsetAfter cs (s.props.take i)) p

theorem charset_append (cs : Option String) (l m : List Property) : charsetAfter cs (l ++ m) = charsetAfter (charsetAfter cs l) m := by
  unfold charsetAfter
  rw [List.findSome?_append, Option.or_assoc]

theorem at_sections (data : Bytes) (doc : Bool) : ∀ (l : List (Nat × Section)) (cs : Option String) (a : Nat),
    (∀ i x, l[i]? = some x → SectionAt data doc x.1 (charsetAfter cs ((l.take i).flatMap fun y => y.2.props)) x.2) →
    ∃ b, AtPlace data (sections doc cs (l.map Prod.fst)) (l.map Prod.snd) a b
  | [], cs, a, _ => ⟨a, at_pure _ _ _⟩
  | x :: l, cs, a, h => by
    have h0 := h 0 x rfl
    rw [List.take_zero, List.flatMap_nil, show charsetAfter cs [] = cs by simp [charsetAfter]] at h0
    obtain ⟨c, hc⟩ := C166_section data doc x.1 cs x.2 h0.size h0.count h0.inData h0.head h0.props
    obtain ⟨b, hb⟩ := at_sections data doc l (charsetAfter cs x.2.props) c fun i y hy => by
      have := h (i + 1) y (by simpa using hy)
      rwa [List.take_succ_cons, List.flatMap_cons, charset_append] at this
    refine ⟨b, AtPlace.bind (at_jump data a x.1) (AtPlace.bind hc ?_)⟩
    exact AtPlace.map (f := fun r => x.2 :: r) hb

/-- What stands before the sections. -/
structure SummaryHead where
  format : Nat
  version : Nat
  revision : Nat
  os : Nat
  guid : Bytes
  names : List Bytes

/-- Its numbers and names have the sizes the format gives them. -/
structure SummaryHeadGood (h : SummaryHead) : Prop where
  format : h.format < 2 ^ 16
  version : h.version < 2 ^ 8
  revision : h.revision < 2 ^ 8
  os : h.os < 2 ^ 16
  guid : h.guid.length = 16
  names : ∀ n ∈ h.names, n.length = 16

/-- The bytes before the sections. -/
def summaryBytes (h : SummaryHead) (offsets : List Nat) : Bytes :=
  [0xfe, 0xff] ++ (leBytes 2 h.format ++ (leBytes 1 h.version ++ (leBytes 1 h.revision ++ (leBytes 2 h.os ++ (h.guid ++ (leBytes 4 offsets.length ++
    (h.names.zip offsets).flatMap fun x => x.1 ++ leBytes 4 x.2))))))

/-- **C166.**  A summary is read as it was written, its sections being anywhere; the charset of texts is the one of the first code page told in any
section before. -/
theorem C166_summary (data : Bytes) (doc : Bool) (h : SummaryHead) (hg : SummaryHeadGood h) (l : List (Nat × Section)) (hl : l.length ≤ 100)
    (hn : h.names.length = l.length) (ho : ∀ x ∈ l, x.1 < 2 ^ 32) (hp : summaryBytes h (l.map Prod.fst) <+: data)
    (hs : ∀ i x, l[i]? = some x → SectionAt data doc x.1 (charsetAfter none ((l.take i).flatMap fun y => y.2.props)) x.2) :
    ∃ b, AtPlace data (summary doc) (l.map Prod.snd) 0 b := by
  have r1 : Reads summaryHead l.length ([0xfe, 0xff] ++ (leBytes 2 h.format ++ (leBytes 1 h.version ++ (leBytes 1 h.revision ++ (leBytes 2 h.os ++ (h.guid ++ leBytes 4 l.length)))))) := by
    have f := hg.format
    have v := hg.version
    have r := hg.revision
    have o := hg.os
    refine Reads.bind (reads_raw_n 2 [0xfe, 0xff] rfl (by decide)) ?_
    refine Reads.bind (reads_int_le 2 h.format (by omega) (by omega)) ?_
    refine Reads.bind (reads_int_le 1 h.version (by omega) (by omega)) ?_
    refine Reads.bind (reads_int_le 1 h.revision (by omega) (by omega)) ?_
    refine Reads.bind (reads_int_le 2 h.os (by omega) (by omega)) ?_
    refine Reads.bind (reads_raw_n 16 h.guid hg.guid (by decide)) ?_
    refine Reads.of_eq (Reads.bind (ys := []) (reads_int_le 4 l.length (by omega) (by omega)) ?_) rfl (List.append_nil _)
    rw [if_pos rfl]
    exact reads_pure _
  have hz : (h.names.zip (l.map Prod.fst)).length = l.length := by simp [hn]
  have r2 : Reads (sectionIndices l.length) (l.map Prod.fst) ((h.names.zip (l.map Prod.fst)).flatMap fun x => x.1 ++ leBytes 4 x.2) := by
    rw [sectionIndices, if_neg (by omega)]
    have := reads_times_map sectionIndex (fun x : Bytes × Nat => x.2) (fun x => x.1 ++ leBytes 4 x.2) (h.names.zip (l.map Prod.fst)) fun x hx => by
      obtain ⟨m1, m2⟩ := List.of_mem_zip (a := x.1) (b := x.2) hx
      obtain ⟨y, hy, e⟩ := List.mem_map.1 m2
      have := ho y hy
      exact Reads.bind (reads_fixed .little .eightBit (by decide) 16 x.1 (hg.names _ m1) (by omega)) (reads_int_le 4 x.2 (by omega) (by omega))
    rw [hz, show List.map (fun x : Bytes × Nat => x.2) (h.names.zip (l.map Prod.fst)) = l.map Prod.fst from List.map_snd_zip (by simp [hn])] at this
    exact this
  have r3 := Reads.bind (f := fun n => sectionIndices n) r1 r2
  have hb : ([0xfe, 0xff] ++ (leBytes 2 h.format ++ (leBytes 1 h.version ++ (leBytes 1 h.revision ++ (leBytes 2 h.os ++ (h.guid ++ leBytes 4 l.length)))))) ++
      ((h.names.zip (l.map Prod.fst)).flatMap fun x => x.1 ++ leBytes 4 x.2) = summaryBytes h (l.map Prod.fst) := by
    simp only [summaryBytes, List.length_map, List.append_assoc]
  have a1 := r1.at (data := data) (a := 0) (prefix_left (by rw [hb]; exact hp)) (by omega)
  have hp2 := drop_prefix (k := 0) (data := data) (by rw [hb]; exact hp)
  have hle := hp2.length_le
  have a2 := r2.at hp2 (by
    have := hp.length_le
    rw [← hb, List.length_append] at this
    omega)
  obtain ⟨b, h3⟩ := at_sections data doc l none _ hs
  exact ⟨b, AtPlace.bind a1 (AtPlace.bind a2 h3)⟩

/-- A summary with one section and the number of pages. -/
def pagesHead : SummaryHead := ⟨0, 6, 1, 2, List.replicate 16 7, [List.replicate 16 7]⟩
def pagesSection : Section := ⟨24, [⟨14, 16, 8, .value (.num 70000)⟩]⟩
def pagesData : Bytes := summaryBytes pagesHead [48] ++ (sectionHead pagesSection ++ propertyBytes (.value (.num 70000)))

example : ∃ b, AtPlace pagesData (summary false) [pagesSection] 0 b := by
  refine C166_summary pagesData false pagesHead ⟨by decide, by decide, by decide, by decide, by decide, by decide⟩ [(48, pagesSection)] (by decide) rfl (by decide)
    (by decide +kernel) fun i x hi => ?_
  cases i with
  | zero =>
    simp only [List.getElem?_cons_zero, Option.some.injEq] at hi
    subst hi
    refine ⟨by decide, by decide, by decide +kernel, by decide +kernel, fun j p hj => ?_⟩
    cases j with
    | zero =>
      simp only [pagesSection, List.getElem?_cons_zero, Option.some.injEq] at hj
      subst hj
      exact ⟨by decide, by decide, by decide, by decide, by decide +kernel, by decide +kernel, by show 70000 < 2 ^ 32; decide⟩
    | succ j => simp [pagesSection] at hj
  | succ i => simp at hi

/-! ### Finding properties by their places -/

/-- Fields that follow each other from one place to another; none is empty. -/
def Follow : Nat → List Slot → Nat → Prop
  | a, [], b => a = b
  | a, x :: l, b => x.addr = a ∧ 0 < x.size ∧ Follow (a + x.size) l b

theorem Follow.append {a b c : Nat} : ∀ {l r : List Slot}, Follow a l b → Follow b r c → Follow a (l ++ r) c
  | [], _, h, h' => by cases h; exact h'
  | _ :: _, _, ⟨h1, h2, h3⟩, h' => ⟨h1, h2, h3.append h'⟩

theorem Follow.le {a b : Nat} : ∀ {l : List Slot}, Follow a l b → a ≤ b
  | [], h => Nat.le_of_eq h
  | _ :: _, ⟨_, _, h3⟩ => by have := h3.le; omega

theorem Follow.mem {a b : Nat} : ∀ {l : List Slot}, Follow a l b → ∀ x ∈ l, a ≤ x.addr ∧ 0 < x.size ∧ x.addr + x.size ≤ b
  | [], _, x, hx => by cases hx
  | y :: l, ⟨h1, h2, h3⟩, x, hx => by
    rcases List.mem_cons.1 hx with rfl | hx
    · have := h3.le
      exact ⟨by omega, h2, by omega⟩
    · have := h3.mem x hx
      exact ⟨by omega, this.2.1, this.2.2⟩

theorem Follow.sorted {a b : Nat} : ∀ {l : List Slot}, Follow a l b → l.Pairwise fun x y => x.addr + x.size ≤ y.addr
  | [], _ => .nil
  | x :: l, ⟨h1, h2, h3⟩ => by
    refine List.pairwise_cons.2 ⟨fun y hy => ?_, h3.sorted⟩
    have := (h3.mem y hy).1
    omega

theorem gaps_follow (e : Int) (r : List (Int × Int)) : ∀ (l : List Slot) (a b : Nat), Follow a l b →
    Gaps.gapsLoop a e (l.map (fun x => ((x.addr : Int), (x.size : Int))) ++ r) = Gaps.gapsLoop b e r
  | [], a, b, h => by cases h; rfl
  | x :: l, a, b, ⟨h1, h2, h3⟩ => by
    have := gaps_follow e r l (a + x.size) b h3
    rw [List.map_cons, List.cons_append, Gaps.gapsLoop]
    simp only [if_neg (show ¬ (a : Int) < (x.addr : Int) by omega), if_pos (show (a : Int) < (x.addr : Int) + (x.size : Int) by omega), List.nil_append]
    rw [← this, Nat.cast_add, h1]

theorem sort_id (l : List Slot) (h : l.Pairwise fun x y => x.addr + x.size ≤ y.addr) :
    (l.map (fun x => ((x.addr : Int), (x.size : Int)))).insertionSort (fun a b => a.1 ≤ b.1) = l.map (fun x => ((x.addr : Int), (x.size : Int))) := by
  refine List.Pairwise.insertionSort_eq ?_
  rw [List.pairwise_map]
  exact h.imp fun h => by omega

theorem gaps_all (l : List Slot) (b size : Nat) (h : Follow 0 l b) (hb : b ≤ size) :
    (Gaps.getgaps 0 size (l.map fun x => ((x.addr : Int), (x.size : Int)))).map (fun g => (⟨g.1.toNat, g.2.toNat, none⟩ : Slot)) = if b < size then [⟨b, size - b, none⟩] else [] := by
  have := gaps_follow (0 + size) [] l 0 b h
  rw [List.append_nil] at this
  rw [Gaps.getgaps, sort_id l h.sorted]
  refine (congrArg (List.map _) this).trans ?_
  rw [Gaps.gapsLoop]
  by_cases hs : b < size
  · rw [if_pos (by omega), if_pos hs, List.map_singleton]
    show [(⟨((b : Nat) : Int).toNat, (0 + (size : Int) - (b : Int)).toNat, none⟩ : Slot)] = _
    rw [show (0 + (size : Int) - (b : Int)).toNat = size - b by omega]
    rfl
  · rw [if_neg (by omega), if_neg hs]
    rfl

theorem follow_range (n : Nat) : Follow 8 ((List.range n).map fun i => (⟨8 + 8 * i, 8, none⟩ : Slot)) (8 + 8 * n) := by
  induction n with
  | zero => rfl
  | succ n ih =>
    rw [List.range_succ, List.map_append]
    refine ih.append ⟨rfl, Nat.zero_lt_succ 7, ?_⟩
    show 8 + 8 * n + 8 = 8 + 8 * (n + 1)
    omega

/-- Properties that follow each other from one place to another. -/
def PropsFollow : Nat → List Property → Nat → Prop
  | a, [], b => a = b
  | a, p :: l, b => p.addr = a ∧ 0 < p.size ∧ PropsFollow (a + p.size) l b

theorem follow_props : ∀ (l : List Property) (a b : Nat), PropsFollow a l b → Follow a (l.map fun p => (⟨p.addr, p.size, some p.content⟩ : Slot)) b
  | [], _, _, h => h
  | _ :: l, _, _, ⟨h1, h2, h3⟩ => ⟨h1, h2, follow_props l _ _ h3⟩

theorem found_sorted (l : List Slot) (size : Nat) (hl : l.Pairwise fun x y => x.addr + x.size ≤ y.addr) (x : Slot) (hx : x ∈ l) (h0 : 0 < x.size) (hs : x.addr < size) :
    fieldByAddress l size x.addr = .ok (some x) := by
  have hp : ∀ (i j : Nat) (y z : Slot), i < j → l[i]? = some y → l[j]? = some z → y.addr + y.size ≤ z.addr := by
    intro i j y z hij hy hz
    obtain ⟨hi, rfl⟩ := List.getElem?_eq_some_iff.1 hy
    obtain ⟨hj, rfl⟩ := List.getElem?_eq_some_iff.1 hz
    exact List.pairwise_iff_getElem.1 hl i j hi hj hij
  obtain ⟨r, h1, h2, h3⟩ := _root_.Props.C16_lowerBound l (fun y => decide (y.addr + y.size ≤ x.addr)) (by
    intro i j y z hij hy hz ht
    simp only [decide_eq_true_eq] at ht ⊢
    rcases Nat.lt_or_eq_of_le hij with h | h
    · have := hp i j y z h hy hz
      omega
    · subst h
      rw [hy] at hz
      injection hz with hz
      subst hz
      exact ht)
  obtain ⟨k, hk⟩ := List.mem_iff_getElem?.1 hx
  have hrk : r = k := by
    have e1 := h3 k x hk
    simp only [decide_eq_true_eq] at e1
    rcases Nat.lt_trichotomy r k with h | h | h
    · obtain ⟨y, hy⟩ : ∃ y, l[r]? = some y := ⟨_, List.getElem?_eq_getElem (by have := (List.getElem?_eq_some_iff.1 hk).1; omega)⟩
      have e2 := h3 r y hy
      simp only [decide_eq_true_eq] at e2
      have := e2.1 (hp r k y x h hy hk)
      omega
    · exact h
    · have := e1.2 h
      omega
  rw [fieldByAddress, if_pos hs, h1]
  simp only
  rw [hrk, hk]

/-- **C166 (partial).**  If the properties follow each other in the order of the index, without gap, each of them is found at the place its
index tells.  Missing: properties in another order or with gaps between them, see `C166_reversed` and `C166_gap_lost`. -/
theorem C166_found_partial (s : Section) (e : Nat) (h : PropsFollow (8 + 8 * s.props.length) s.props e) (he : e ≤ s.size) (p : Property) (hp : p ∈ s.props) :
    lookup s p.addr = .ok (some ⟨p.addr, p.size, some p.content⟩) := by
  have hm : Follow 0 (made s) e := by
    have h2 : Follow 8 (((List.range s.props.length).map fun i => (⟨8 + 8 * i, 8, none⟩ : Slot)) ++ s.props.map fun p => (⟨p.addr, p.size, some p.content⟩ : Slot)) e :=
      (follow_range _).append (follow_props _ _ _ h)
    exact ⟨rfl, by decide, rfl, by decide, h2⟩
  have hl : (allFields s).Pairwise fun x y => x.addr + x.size ≤ y.addr := by
    rw [allFields, gaps_all _ e s.size hm he]
    refine List.pairwise_append.2 ⟨hm.sorted, by split <;> simp, fun x hx y hy => ?_⟩
    have := hm.mem x hx
    split at hy
    · simp only [List.mem_singleton] at hy
      subst hy
      exact this.2.2
    · cases hy
  have hx : (⟨p.addr, p.size, some p.content⟩ : Slot) ∈ made s := by
    unfold made
    refine List.mem_cons_of_mem _ (List.mem_cons_of_mem _ (List.mem_append_right _ ?_))
    exact List.mem_map.2 ⟨p, hp, rfl⟩
  have := hm.mem _ hx
  exact found_sorted (allFields s) s.size hl ⟨p.addr, p.size, some p.content⟩ (List.mem_append_left _ hx) this.2.1 (by simp only at this ⊢; omega)

example : PropsFollow (8 + 8 * 2) [⟨2, 24, 15, .value (.text none [65, 66, 67, 68, 69, 70, 0])⟩, ⟨4, 39, 8, .value (.num 70000)⟩] 47 := by simp [PropsFollow]

/-! ### Properties not found -/

theorem bound_true {α : Type} (l : List α) (t : α → Bool) (f n : Nat) (x : α) (h : 0 < n) (hx : l[f + n / 2]? = some x) (ht : t x = true) :
    Tools.lowerBoundLoop l t f n = Tools.lowerBoundLoop l t (f + n / 2 + 1) (n - (n / 2 + 1)) := by
  have e : n >>> 1 = n / 2 := by rw [Nat.shiftRight_eq_div_pow]
  rw [Tools.lowerBoundLoop, dif_pos h]
  simp only [e]
  rw [hx]
  simp only [ht, if_true]

theorem bound_false {α : Type} (l : List α) (t : α → Bool) (f n : Nat) (x : α) (h : 0 < n) (hx : l[f + n / 2]? = some x) (ht : t x = false) :
    Tools.lowerBoundLoop l t f n = Tools.lowerBoundLoop l t f (n / 2) := by
  have e : n >>> 1 = n / 2 := by rw [Nat.shiftRight_eq_div_pow]
  rw [Tools.lowerBoundLoop, dif_pos h]
  simp only [e]
  rw [hx]
  simp only [ht, Bool.false_eq_true, if_false]

theorem bound_zero {α : Type} (l : List α) (t : α → Bool) (f : Nat) : Tools.lowerBoundLoop l t f 0 = .ok f := by
  rw [Tools.lowerBoundLoop, dif_neg (by omega)]

/-- **C166 (disagreement).**  Two properties written in the other order than their index: asking for the first raises an IndexError, asking
for the second gives the first one.  (A binary search needs fields in the order of their places; the list has them in the order of the index.) -/
theorem C166_reversed (i j : Nat) (c d : Content) (n m : Nat) (hn : 0 < n) (hm : 0 < m) :
    lookup ⟨24 + n + m, [⟨i, 24 + n, m, c⟩, ⟨j, 24, n, d⟩]⟩ (24 + n) = .error .index ∧
    lookup ⟨24 + n + m, [⟨i, 24 + n, m, c⟩, ⟨j, 24, n, d⟩]⟩ 24 = .ok (some ⟨24 + n, m, some c⟩) := by
  have hmade : made ⟨24 + n + m, [⟨i, 24 + n, m, c⟩, ⟨j, 24, n, d⟩]⟩ = [⟨0, 4, none⟩, ⟨4, 4, none⟩, ⟨8, 8, none⟩, ⟨16, 8, none⟩, ⟨24 + n, m, some c⟩, ⟨24, n, some d⟩] := rfl
  have hsort : ([((0 : Int), (4 : Int)), (4, 4), (8, 8), (16, 8), (((24 + n : Nat) : Int), (m : Int)), (24, (n : Int))] : List (Int × Int)).insertionSort (fun a b => a.1 ≤ b.1) =
      [(0, 4), (4, 4), (8, 8), (16, 8), (24, (n : Int)), (((24 + n : Nat) : Int), (m : Int))] := by
    have h1 : ¬ (((24 + n : Nat) : Int) ≤ 24) := by omega
    simp only [List.insertionSort_cons, List.insertionSort_nil, List.orderedInsert_nil, List.orderedInsert_cons, if_neg h1]
    simp
  have hslots : allFields ⟨24 + n + m, [⟨i, 24 + n, m, c⟩, ⟨j, 24, n, d⟩]⟩ = [⟨0, 4, none⟩, ⟨4, 4, none⟩, ⟨8, 8, none⟩, ⟨16, 8, none⟩, ⟨24 + n, m, some c⟩, ⟨24, n, some d⟩] := by
    rw [allFields, hmade]
    have hf : Follow 0 [⟨0, 4, none⟩, ⟨4, 4, none⟩, ⟨8, 8, none⟩, ⟨16, 8, none⟩, ⟨24, n, some d⟩, ⟨24 + n, m, some c⟩] (24 + n + m) :=
      ⟨rfl, by decide, rfl, by decide, rfl, by decide, rfl, by decide, rfl, hn, rfl, hm, rfl⟩
    have := gaps_follow (0 + ((24 + n + m : Nat) : Int)) [] _ 0 _ hf
    rw [List.append_nil] at this
    have hg : Gaps.getgaps 0 ((24 + n + m : Nat) : Int) [((0 : Int), (4 : Int)), (4, 4), (8, 8), (16, 8), (((24 + n : Nat) : Int), (m : Int)), (24, (n : Int))] = [] := by
      rw [Gaps.getgaps, hsort]
      refine this.trans ?_
      rw [Gaps.gapsLoop, if_neg (by omega)]
    refine (congrArg (fun g => _ ++ List.map (fun g : Int × Int => (⟨g.1.toNat, g.2.toNat, none⟩ : Slot)) g) hg).trans (List.append_nil _)
  unfold lookup
  rw [hslots]
  constructor
  · have hb : Tools.lowerBound ([⟨0, 4, none⟩, ⟨4, 4, none⟩, ⟨8, 8, none⟩, ⟨16, 8, none⟩, ⟨24 + n, m, some c⟩, ⟨24, n, some d⟩] : List Slot) (fun x => decide (x.addr + x.size ≤ 24 + n)) = .ok 6 :=
      (bound_true _ _ 0 6 ⟨16, 8, none⟩ (by decide) rfl (by simp)).trans ((bound_true _ _ 4 2 ⟨24, n, some d⟩ (by decide) rfl (by simp)).trans (bound_zero _ _ 6))
    rw [fieldByAddress, if_pos (show 24 + n < 24 + n + m by omega), hb]
    rfl
  · have hb : Tools.lowerBound ([⟨0, 4, none⟩, ⟨4, 4, none⟩, ⟨8, 8, none⟩, ⟨16, 8, none⟩, ⟨24 + n, m, some c⟩, ⟨24, n, some d⟩] : List Slot) (fun x => decide (x.addr + x.size ≤ 24)) = .ok 4 :=
      (bound_true _ _ 0 6 ⟨16, 8, none⟩ (by decide) rfl (by simp)).trans ((bound_false _ _ 4 2 ⟨24, n, some d⟩ (by decide) rfl (by simp; omega)).trans
        ((bound_false _ _ 4 1 ⟨24 + n, m, some c⟩ (by decide) rfl (by simp; omega)).trans (bound_zero _ _ 4)))
    rw [fieldByAddress, if_pos (show 24 < 24 + n + m by omega), hb]
    rfl

/-- **C166 (disagreement).**  Four properties in order, the first of them a code page: its 6 bytes are padded to 8, and the fourth is never
found (the bytes between become a field behind all the others). -/
theorem C166_gap_lost (i j k : Nat) (a b c d : Content) (n m o : Nat) (hn : 0 < n) (hm : 0 < m) (ho : 0 < o) :
    lookup ⟨48 + n + m + o, [⟨1, 40, 6, a⟩, ⟨i, 48, n, b⟩, ⟨j, 48 + n, m, c⟩, ⟨k, 48 + n + m, o, d⟩]⟩ (48 + n + m) = .error .index := by
  have hslots : allFields ⟨48 + n + m + o, [⟨1, 40, 6, a⟩, ⟨i, 48, n, b⟩, ⟨j, 48 + n, m, c⟩, ⟨k, 48 + n + m, o, d⟩]⟩ =
      [⟨0, 4, none⟩, ⟨4, 4, none⟩, ⟨8, 8, none⟩, ⟨16, 8, none⟩, ⟨24, 8, none⟩, ⟨32, 8, none⟩, ⟨40, 6, some a⟩, ⟨48, n, some b⟩, ⟨48 + n, m, some c⟩, ⟨48 + n + m, o, some d⟩, ⟨46, 2, none⟩] := by
    have hmade : made ⟨48 + n + m + o, [⟨1, 40, 6, a⟩, ⟨i, 48, n, b⟩, ⟨j, 48 + n, m, c⟩, ⟨k, 48 + n + m, o, d⟩]⟩ =
      [⟨0, 4, none⟩, ⟨4, 4, none⟩, ⟨8, 8, none⟩, ⟨16, 8, none⟩, ⟨24, 8, none⟩, ⟨32, 8, none⟩, ⟨40, 6, some a⟩] ++ [⟨48, n, some b⟩, ⟨48 + n, m, some c⟩, ⟨48 + n + m, o, some d⟩] := rfl
    have f1 : Follow 0 [⟨0, 4, none⟩, ⟨4, 4, none⟩, ⟨8, 8, none⟩, ⟨16, 8, none⟩, ⟨24, 8, none⟩, ⟨32, 8, none⟩, ⟨40, 6, some a⟩] 46 :=
      ⟨rfl, by decide, rfl, by decide, rfl, by decide, rfl, by decide, rfl, by decide, rfl, by decide, rfl, Nat.zero_lt_succ 5, rfl⟩
    have f2 : Follow 48 [⟨48, n, some b⟩, ⟨48 + n, m, some c⟩, ⟨48 + n + m, o, some d⟩] (48 + n + m + o) := ⟨rfl, hn, rfl, hm, rfl, ho, rfl⟩
    have hpw : (made ⟨48 + n + m + o, [⟨1, 40, 6, a⟩, ⟨i, 48, n, b⟩, ⟨j, 48 + n, m, c⟩, ⟨k, 48 + n + m, o, d⟩]⟩).Pairwise fun x y => x.addr + x.size ≤ y.addr := by
      rw [hmade]
      refine List.pairwise_append.2 ⟨f1.sorted, f2.sorted, fun x hx y hy => ?_⟩
      have h1 := f1.mem x hx
      have h2 := f2.mem y hy
      omega
    have hg : Gaps.getgaps 0 ((48 + n + m + o : Nat) : Int) ((made ⟨48 + n + m + o, [⟨1, 40, 6, a⟩, ⟨i, 48, n, b⟩, ⟨j, 48 + n, m, c⟩, ⟨k, 48 + n + m, o, d⟩]⟩).map fun x => ((x.addr : Int), (x.size : Int))) = [(46, 2)] := by
      rw [Gaps.getgaps, sort_id _ hpw, hmade, List.map_append]
      refine (gaps_follow _ _ _ 0 46 f1).trans ?_
      rw [List.map_cons, Gaps.gapsLoop]
      simp only
      rw [if_pos (by omega), if_pos (by omega)]
      have := gaps_follow (0 + ((48 + n + m + o : Nat) : Int)) [] _ (48 + n) _ f2.2.2
      rw [List.append_nil] at this
      rw [show (((48 : Nat) : Int) + (n : Int)) = ((48 + n : Nat) : Int) by omega, this, Gaps.gapsLoop, if_neg (by omega)]
      rfl
    rw [allFields, hg, hmade]
    rfl
  have hb : Tools.lowerBound ([⟨0, 4, none⟩, ⟨4, 4, none⟩, ⟨8, 8, none⟩, ⟨16, 8, none⟩, ⟨24, 8, none⟩, ⟨32, 8, none⟩, ⟨40, 6, some a⟩, ⟨48, n, some b⟩, ⟨48 + n, m, some c⟩, ⟨48 + n + m, o, some d⟩, ⟨46, 2, none⟩] : List Slot) (fun x => decide (x.addr + x.size ≤ 48 + n + m)) = .ok 11 :=
    (bound_true _ _ 0 11 ⟨32, 8, none⟩ (by decide) rfl (by simp; omega)).trans ((bound_true _ _ 6 5 ⟨48 + n, m, some c⟩ (by decide) rfl (by simp)).trans
      ((bound_true _ _ 9 2 ⟨46, 2, none⟩ (by decide) rfl (by simp; omega)).trans (bound_zero _ _ 11)))
  rw [lookup, hslots, fieldByAddress, if_pos (show 48 + n + m < 48 + n + m + o by omega), hb]
  rfl

end Hachoir.Props

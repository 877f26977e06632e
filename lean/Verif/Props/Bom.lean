import Verif.Formats.Bom
import Verif.Props.Keyring

/-!
# C176: Apple bills of materials
-/

namespace Hachoir.Props
open Hachoir Hachoir.Stream Hachoir.Field Hachoir.Formats Hachoir.Formats.Bom Spec _root_.Props

/-! ### Specification -/

def bomEntry (e : Entry) : Bytes := beBytes 4 e.offset ++ beBytes 4 e.size

def BomEntryFits (e : Entry) : Prop := e.offset < 2 ^ 32 ∧ e.size < 2 ^ 32

def bomTrailer (t : Trailer) : Bytes := beBytes 4 t.spaces ++ (t.entries.flatMap bomEntry ++ (t.blank ++ (beBytes 4 t.trail.length ++ t.trail.flatMap bomEntry)))

/-- The trailer of a store of `n` objects: one entry more, and at least one that is blank. -/
structure TrailerFits (n : Nat) (t : Trailer) : Prop where
  spaces : t.spaces < 2 ^ 32 ∧ n + 1 < t.spaces
  entries : t.entries.length = n + 1 ∧ ∀ e ∈ t.entries, BomEntryFits e
  blank : t.blank.length = 8 * (t.spaces - (n + 1))
  trail : t.trail.length < 2 ^ 32 ∧ ∀ e ∈ t.trail, BomEntryFits e

/-- The bytes at a place. -/
def sliceAt (data : Bytes) (e : Entry) : Bytes := (data.drop e.offset).take e.size

/-- The entry is of bytes of the file. -/
def InFile (data : Bytes) (e : Entry) : Prop := e.offset + e.size ≤ data.length

/-- "BOMStore" and the numbers. -/
def bomHead (s : Store) : Bytes :=
  [66, 79, 77, 83, 116, 111, 114, 101] ++ (beBytes 4 s.version ++ (beBytes 4 s.objects ++ (beBytes 4 s.trailerOffset ++ (beBytes 4 s.trailerSize ++ (beBytes 4 s.headerOffset ++ (beBytes 4 s.headerSize ++ s.first))))))

/-- A store in a file. -/
structure BomStore (data : Bytes) (s : Store) : Prop where
  numbers : s.version < 2 ^ 32 ∧ s.objects < 2 ^ 32 ∧ s.trailerOffset < 2 ^ 32 ∧ s.trailerSize < 2 ^ 32 ∧ s.headerOffset < 2 ^ 32 ∧ s.headerSize < 2 ^ 32
  first : s.first.length = 480
  head : bomHead s <+: data
  fits : TrailerFits s.objects s.trailer
  trailer : bomTrailer s.trailer <+: data.drop s.trailerOffset
  header : 0 < s.headerSize ∧ InFile data ⟨s.headerOffset, s.headerSize⟩ ∧ s.header = sliceAt data ⟨s.headerOffset, s.headerSize⟩
  contents : (∀ e ∈ s.trailer.entries, e.size ≠ 0 → InFile data e) ∧ s.contents = (s.trailer.entries.filter fun e => e.size != 0).map (sliceAt data)
  trails : (∀ e ∈ s.trailer.trail, e.size ≠ 0 ∧ InFile data e) ∧ s.trails = s.trailer.trail.map (sliceAt data)

/-! ### Proofs -/

theorem reads_bom_entry (e : Entry) (h : BomEntryFits e) : Reads entry e (bomEntry e) :=
  Reads.bind (reads_gimp_int e.offset h.1) (Reads.map (f := fun n => (⟨e.offset, n⟩ : Entry)) (reads_gimp_int e.size h.2))

theorem reads_bom_trailer (n : Nat) (t : Trailer) (h : TrailerFits n t) : Reads (Bom.trailer n) t (bomTrailer t) := by
  obtain ⟨⟨h1, h2⟩, ⟨h3, h4⟩, h5, h6, h7⟩ := h
  have e : Reads (Rd.times entry (n + 1)) t.entries (t.entries.flatMap bomEntry) := by
    rw [← h3]
    exact reads_list entry bomEntry t.entries fun e he => reads_bom_entry e (h4 e he)
  have b : Reads (blanks t.spaces n) t.blank t.blank := by
    rw [blanks, if_neg (by omega)]
    exact reads_raw_n _ t.blank (by omega) (by omega)
  exact Reads.bind (reads_gimp_int t.spaces h1) (Reads.bind e (Reads.bind b (Reads.bind (reads_gimp_int t.trail.length h6)
    (Reads.map (f := fun l => (⟨t.spaces, t.entries, t.blank, l⟩ : Trailer)) (reads_list entry bomEntry t.trail fun e he => reads_bom_entry e (h7 e he))))))

theorem at_slice (data : Bytes) (e : Entry) (h : InFile data e) (h0 : e.size ≠ 0) : AtPlace data (Rd.raw e.size) (sliceAt data e) e.offset (e.offset + e.size) := by
  unfold InFile at h
  have hl : (sliceAt data e).length = e.size := by
    rw [sliceAt, List.length_take, List.length_drop]
    omega
  have := (reads_raw_n e.size (sliceAt data e) hl (by omega)).at (data := data) (a := e.offset) (List.take_prefix _ _) (by omega)
  rwa [hl] at this

theorem at_content (data : Bytes) (e : Entry) (h : InFile data e) (h0 : e.size ≠ 0) (a : Nat) : AtPlace data (content e) (sliceAt data e) a (e.offset + e.size) :=
  AtPlace.bind (f := fun _ => Rd.raw e.size) (at_jump data a e.offset) (at_slice data e h h0)

theorem at_bom_contents (data : Bytes) : ∀ (l : List Entry) (_ : ∀ e ∈ l, e.size ≠ 0 ∧ InFile data e) (a : Nat), ∃ b, AtPlace data (Rd.each content l) (l.map (sliceAt data)) a b
  | [], _, a => ⟨a, fun _ _ => rfl⟩
  | e :: l, h, a => by
    obtain ⟨h1, h2⟩ := h e (List.mem_cons_self ..)
    obtain ⟨b, hb⟩ := at_bom_contents data l (fun x hx => h x (List.mem_cons_of_mem _ hx)) (e.offset + e.size)
    exact ⟨b, AtPlace.bind (f := fun x => Rd.bind (Rd.each content l) fun as => Rd.pure (x :: as)) (at_content data e h2 h1 a) (AtPlace.map (f := fun as => sliceAt data e :: as) hb)⟩

/-- **C176**: every object of a bill of materials is the bytes of the file its entry tells, wherever they are; so are the header and the parts behind. -/
theorem C176_store (data : Bytes) (s : Store) (h : BomStore data s) : ∃ e, AtPlace data store s 0 e := by
  obtain ⟨⟨n1, n2, n3, n4, n5, n6⟩, hf, hh, ht, htr, ⟨hd1, hd2, hd3⟩, ⟨c1, c2⟩, k1, k2⟩ := h
  obtain ⟨v, n, t, ts, ho, hs, f, tr, hd, cs, ks⟩ := s
  simp only at *
  have hu : used tr.entries = tr.entries.filter fun e => e.size != 0 := by
    unfold used
    apply List.filter_congr
    intro e _
    by_cases h : e.size = 0 <;> simp [h]
  obtain ⟨b, hb⟩ := at_bom_contents data (used tr.entries) (by
    intro e he
    rw [hu, List.mem_filter] at he
    have : e.size ≠ 0 := by simpa using he.2
    exact ⟨this, c1 e he.1 this⟩) (ho + hs)
  obtain ⟨c, hc⟩ := at_bom_contents data tr.trail k1 b
  have htl : t ≤ data.length := by
    have := htr.length_le
    rw [List.length_drop, bomTrailer, List.length_append, beBytes_length] at this
    omega
  refine ⟨c, ?_⟩
  refine at_then (f := fun _ => _) (reads_raw_n 8 [66, 79, 77, 83, 116, 111, 114, 101] rfl (by decide)) (by simpa [bomHead] using hh) (Nat.zero_le _) fun hp l => ?_
  refine at_then (reads_gimp_int v n1) hp l fun hp l => ?_
  refine at_then (reads_gimp_int n n2) hp l fun hp l => ?_
  refine at_then (reads_gimp_int t n3) hp l fun hp l => ?_
  refine at_then (reads_gimp_int ts n4) hp l fun hp l => ?_
  refine at_then (reads_gimp_int ho n5) hp l fun hp l => ?_
  refine at_then (reads_gimp_int hs n6) hp l fun hp l => ?_
  refine at_then (ys := []) (reads_raw_n 480 f hf (by decide)) (by simpa using hp) l fun hp l => ?_
  refine AtPlace.bind (at_jump data _ t) ?_
  refine AtPlace.bind ((reads_bom_trailer n tr ht).at htr htl) ?_
  refine AtPlace.bind (at_jump data _ ho) ?_
  refine AtPlace.bind (at_slice data ⟨ho, hs⟩ hd2 (by simp only; omega)) ?_
  refine AtPlace.bind hb ?_
  rw [hd3, c2, k2, ← hu]
  exact AtPlace.map (f := fun ks => (⟨v, n, t, ts, ho, hs, f, tr, sliceAt data ⟨ho, hs⟩, (used tr.entries).map (sliceAt data), ks⟩ : Store)) hc

/-- **C176** (disagreement): a store whose table has no blank entry cannot be read behind its entries, whatever follows. -/
theorem C176_full (n : Nat) (es : List Entry) (hn : n + 1 < 2 ^ 32) (he : es.length = n + 1 ∧ ∀ e ∈ es, BomEntryFits e) : ∃ err, Fails (Bom.trailer n) err (beBytes 4 (n + 1) ++ (es.flatMap bomEntry ++ [])) := by
  have e : Reads (Rd.times entry (n + 1)) es (es.flatMap bomEntry) := by
    rw [← he.1]
    exact reads_list entry bomEntry es fun x hx => reads_bom_entry x (he.2 x hx)
  refine ⟨.field, Reads.fails (reads_gimp_int (n + 1) hn) (Reads.fails e ?_)⟩
  intro data s hs k stop hp hst
  show Rd.bind (blanks (n + 1) n) _ s stop (8 * k) = _
  rw [Rd.bind, blanks, if_neg (by omega), show 8 * (n + 1 - n - 1) = 0 by omega]
  rfl

/-- **C176** (disagreement): a part behind the objects that has no bytes is an error; objects without bytes are passed over. -/
theorem C176_trail (e : Entry) (h : e.size = 0) (s : InputStream) (stop k : Nat) : content e s stop k = .error .field ∧ ∀ es, used (e :: es) = used es := by
  refine ⟨?_, fun es => by simp [used, h]⟩
  show Rd.bind (Rd.jump e.offset) (fun _ => Rd.raw e.size) s stop k = _
  rw [h]
  rfl

/-! ### Example -/

/-- One object of three bytes, and a part of two bytes that is in it. -/
def smallStore : Store :=
  ⟨1, 1, 512, 40, 0, 32, List.replicate 480 0, ⟨3, [⟨0, 0⟩, ⟨552, 3⟩], List.replicate 8 0, [⟨553, 2⟩]⟩,
    [66, 79, 77, 83, 116, 111, 114, 101, 0, 0, 0, 1, 0, 0, 0, 1, 0, 0, 2, 0, 0, 0, 0, 40, 0, 0, 0, 0, 0, 0, 0, 32], [[1, 2, 3]], [[2, 3]]⟩

def smallBom : Bytes := bomHead smallStore ++ (bomTrailer smallStore.trailer ++ [1, 2, 3])

example : ∃ e, AtPlace smallBom store smallStore 0 e :=
  C176_store smallBom smallStore {
    numbers := by decide
    first := List.length_replicate
    head := ⟨_, rfl⟩
    fits := ⟨by decide, ⟨rfl, by show ∀ e ∈ ([⟨0, 0⟩, ⟨552, 3⟩] : List Entry), _; simp [BomEntryFits]⟩, rfl, by decide,
      by show ∀ e ∈ ([⟨553, 2⟩] : List Entry), _; simp [BomEntryFits]⟩
    trailer := by decide +kernel
    header := ⟨by decide, by show _ ≤ _; decide +kernel, by decide +kernel⟩
    contents := ⟨by
      intro e he h0
      have h : e = ⟨0, 0⟩ ∨ e = ⟨552, 3⟩ := by
        have he : e ∈ ([⟨0, 0⟩, ⟨552, 3⟩] : List Entry) := he
        simpa using he
      rcases h with rfl | rfl
      · exact absurd rfl h0
      · show _ ≤ _
        decide +kernel, by decide +kernel⟩
    trails := ⟨by
      intro e he
      have h : e = ⟨553, 2⟩ := List.mem_singleton.1 (show e ∈ ([⟨553, 2⟩] : List Entry) from he)
      subst h
      refine ⟨by decide, ?_⟩
      show _ ≤ _
      decide +kernel, by decide +kernel⟩ }

end Hachoir.Props

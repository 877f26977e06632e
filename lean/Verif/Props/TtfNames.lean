import Verif.Formats.Ttf
import Verif.Metadata.Ttf
import Verif.Props.Cab
import Verif.Props.OggMeta

/-!
# C164: the names in a TrueType font
-/

namespace Hachoir.Props
open Hachoir Hachoir.Stream Hachoir.Field Hachoir.Formats Hachoir.Formats.Ttf Hachoir.Metadata Hachoir.Core Hachoir.Metadata.Archive _root_.Props Spec

/-! ### Specification -/

/-- Two records with the same bytes, or with bytes that do not overlap. -/
def SameOrApart (g h : NameHeader) : Prop :=
  (g.offset = h.offset ∧ g.length = h.length) ∨ g.offset + g.length ≤ h.offset ∨ h.offset + h.length ≤ g.offset

/-- The bytes of a record, in the table. -/
def recordBytes (table : Bytes) (pool : Nat) (h : NameHeader) : Bytes := (table.drop (pool + h.offset)).take h.length

/-- The attribute as which a name is told (OpenType: 0 copyright, 3 identifier, 5 version, 8 manufacturer, 11 URL of the vendor, 14 URL of the
license). -/
def nameAttr : List (Nat × String) := [(0, "copyright"), (3, "title"), (5, "version"), (8, "author"), (11, "url"), (14, "copyright")]

/-- What is told of a name. -/
inductive NameSays (decode : NameCharset → Bytes → Text) (table : Bytes) (pool : Nat) (h : NameHeader) : String → Text → Prop where
  | version (rest : Text) (id : h.name = 5) (text : decode (charsetOf h) (recordBytes table pool h) = txt "Version " ++ rest) : NameSays decode table pool h "version" rest
  | plain (attr : String) (id : (h.name, attr) ∈ nameAttr) (no : ¬ (h.name = 5 ∧ txt "Version " <+: decode (charsetOf h) (recordBytes table pool h))) :
      NameSays decode table pool h attr (decode (charsetOf h) (recordBytes table pool h))

/-! ### The fields of the table -/

/-- Fields that follow each other. -/
def SlotsFrom : Nat → List Slot → Prop
  | _, [] => True
  | c, x :: r => x.place = c ∧ SlotsFrom (c + x.size) r

theorem slots_ge : ∀ (l : List Slot) (c : Nat), SlotsFrom c l → ∀ x ∈ l, c ≤ x.place
  | [], _, _, _, h => by cases h
  | y :: l, c, hc, x, h => by
    obtain ⟨h1, h2⟩ := hc
    rcases List.mem_cons.1 h with rfl | h
    · omega
    · have := slots_ge l _ h2 x h
      omega

theorem fieldAt_mem : ∀ (l : List Slot) (c : Nat), SlotsFrom c l → ∀ x ∈ l, 0 < x.size → fieldAt l x.place = some x
  | [], _, _, _, h, _ => by cases h
  | y :: l, c, hc, x, h, hx => by
    obtain ⟨h1, h2⟩ := hc
    rw [fieldAt, List.find?_cons]
    rcases List.mem_cons.1 h with rfl | h
    · rw [decide_eq_true (by omega)]
    · have := slots_ge l _ h2 x h
      rw [decide_eq_false (by omega)]
      exact fieldAt_mem l _ h2 x h hx

theorem slots_append : ∀ (a b : List Slot) (c : Nat), SlotsFrom c a → SlotsFrom (c + (a.map (·.size)).sum) b → SlotsFrom c (a ++ b)
  | [], b, c, _, h => by simpa using h
  | x :: a, b, c, ha, h => by
    refine ⟨ha.1, slots_append a b _ ha.2 ?_⟩
    rw [List.map_cons, List.sum_cons, ← Nat.add_assoc] at h
    exact h

theorem slots_rest (size cur : Nat) : SlotsFrom cur (restSlot size cur) := by
  unfold restSlot
  split
  · exact ⟨rfl, trivial⟩
  · trivial

theorem slots_gap (cur place : Nat) (b : List Slot) (h : cur ≤ place) (hb : SlotsFrom place b) : SlotsFrom cur (gapSlot cur place ++ b) := by
  unfold gapSlot
  split
  · exact ⟨rfl, by rw [show cur + (place - cur) = place by omega]; exact hb⟩
  · rw [show cur = place by omega]
    exact hb

theorem slots_layout (size pool : Nat) : ∀ (l : List NameHeader) (cur : Nat) (last : Option (Nat × Nat)), SlotsFrom cur (layout size pool cur last l)
  | [], cur, _ => slots_rest size cur
  | x :: l, cur, last => by
    rw [layout]
    by_cases h1 : last = some (x.offset, x.length)
    · rw [if_pos h1]
      exact slots_layout size pool l cur last
    rw [if_neg h1]
    by_cases h2 : pool + x.offset < cur
    · rw [if_pos h2]
      exact slots_layout size pool l cur _
    rw [if_neg h2]
    by_cases h3 : size < pool + x.offset
    · rw [if_pos h3]
      exact slots_rest size cur
    rw [if_neg h3]
    by_cases h4 : x.length = 0
    · rw [if_pos h4]
      exact slots_gap _ _ _ (by omega) (slots_layout size pool l _ _)
    rw [if_neg h4]
    by_cases h5 : size < pool + x.offset + x.length
    · rw [if_pos h5]
      exact slots_gap _ _ _ (by omega) (slots_rest size _)
    rw [if_neg h5]
    exact slots_gap _ _ _ (by omega) ⟨rfl, slots_layout size pool l _ _⟩

theorem slots_headers : ∀ (n c : Nat), SlotsFrom c (headerSlots c n) ∧ ((headerSlots c n).map (·.size)).sum = 12 * n
  | 0, _ => ⟨trivial, rfl⟩
  | n + 1, c => by
    obtain ⟨h1, h2⟩ := slots_headers n (c + 12)
    refine ⟨⟨rfl, h1⟩, ?_⟩
    rw [headerSlots, List.map_cons, List.sum_cons, h2]
    show 12 + 12 * n = 12 * (n + 1)
    omega

theorem slots_all (size pool : Nat) (hs : List NameHeader) : SlotsFrom 0 (Ttf.slots size pool hs) := by
  have : SlotsFrom 6 (headerSlots 6 hs.length ++ layout size pool (6 + 12 * hs.length) none (hs.mergeSort fun a b => decide (a.offset ≤ b.offset))) := ?_
  · exact ⟨rfl, rfl, rfl, this⟩
  refine slots_append _ _ _ (slots_headers hs.length 6).1 ?_
  rw [(slots_headers hs.length 6).2]
  exact slots_layout _ _ _ _ _

/-- The text of a record is among the fields. -/
theorem layout_mem (size pool : Nat) : ∀ (l : List NameHeader) (cur : Nat) (last : Option (Nat × Nat)),
    l.Pairwise (fun g h => g.offset ≤ h.offset) → l.Pairwise SameOrApart → (∀ g ∈ l, pool + g.offset + g.length ≤ size) →
    (∀ o n, last = some (o, n) → 0 < n → pool + o < cur) → ∀ h ∈ l, 0 < h.length → cur ≤ pool + h.offset →
    ∃ g ∈ l, g.offset = h.offset ∧ g.length = h.length ∧ (⟨pool + h.offset, h.length, some g⟩ : Slot) ∈ layout size pool cur last l
  | [], _, _, _, _, _, _, h, hm, _, _ => by cases hm
  | x :: l, cur, last, hs, ha, hr, hl, h, hm, hn, hc => by
    rw [List.pairwise_cons] at hs ha
    have hx := hr x (by simp)
    have next : ∀ (c : Nat) (last' : Option (Nat × Nat)), (∀ o n, last' = some (o, n) → 0 < n → pool + o < c) → h ∈ l → c ≤ pool + h.offset →
        ∃ g ∈ x :: l, g.offset = h.offset ∧ g.length = h.length ∧ (⟨pool + h.offset, h.length, some g⟩ : Slot) ∈ layout size pool c last' l := by
      intro c last' i1 i2 i3
      obtain ⟨g, g1, g2, g3, g4⟩ := layout_mem size pool l c last' hs.2 ha.2 (fun y hy => hr y (by simp [hy])) i1 h i2 hn i3
      exact ⟨g, by simp [g1], g2, g3, g4⟩
    rw [layout]
    by_cases h1 : last = some (x.offset, x.length)
    · rw [if_pos h1]
      rcases List.mem_cons.1 hm with rfl | hm
      · have := hl _ _ h1 hn
        omega
      · exact next _ _ hl hm hc
    rw [if_neg h1]
    by_cases h2 : pool + x.offset < cur
    · rw [if_pos h2]
      rcases List.mem_cons.1 hm with rfl | hm
      · omega
      · exact next _ _ (fun o n e _ => by simp only [Option.some.injEq, Prod.mk.injEq] at e; omega) hm hc
    rw [if_neg h2, if_neg (by omega)]
    by_cases h4 : x.length = 0
    · rw [if_pos h4]
      rcases List.mem_cons.1 hm with rfl | hm
      · omega
      · have := hs.1 h hm
        obtain ⟨g, g1, g2, g3, g4⟩ := next (pool + x.offset) (some (x.offset, x.length)) (fun o n e _ => by simp only [Option.some.injEq, Prod.mk.injEq] at e; omega) hm (by omega)
        exact ⟨g, g1, g2, g3, List.mem_append_right _ g4⟩
    rw [if_neg h4, if_neg (by omega)]
    rcases List.mem_cons.1 hm with rfl | hm
    · exact ⟨h, by simp, rfl, rfl, List.mem_append_right _ (List.mem_cons_self ..)⟩
    · have h6 := hs.1 h hm
      rcases ha.1 h hm with ⟨e1, e2⟩ | h7 | h7
      · exact ⟨x, by simp, e1, e2, List.mem_append_right _ (by rw [← e1, ← e2]; exact List.mem_cons_self ..)⟩
      · obtain ⟨g, g1, g2, g3, g4⟩ := next (pool + x.offset + x.length) (some (x.offset, x.length)) (fun o n e _ => by simp only [Option.some.injEq, Prod.mk.injEq] at e; omega) hm (by omega)
        exact ⟨g, g1, g2, g3, List.mem_append_right _ (List.mem_cons_of_mem _ g4)⟩
      · omega

/-- Records of a table: behind the headers, inside of the table, and each with its own bytes. -/
structure TtfNamesGood (size pool : Nat) (hs : List NameHeader) : Prop where
  behind : 6 + 12 * hs.length ≤ pool
  inside : ∀ h ∈ hs, pool + h.offset + h.length ≤ size
  apart : hs.Pairwise SameOrApart
  charset : ∀ g ∈ hs, ∀ h ∈ hs, g.offset = h.offset → g.length = h.length → charsetOf g = charsetOf h

/-- **C164.** The text of every record is found at its place, with the size and the charset told by the record, whatever the order of the texts. -/
theorem C164_found (size pool : Nat) (hs : List NameHeader) (hg : TtfNamesGood size pool hs) (h : NameHeader) (hm : h ∈ hs) (hn : 0 < h.length) :
    ∃ g, fieldAt (Ttf.slots size pool hs) (pool + h.offset) = some ⟨pool + h.offset, h.length, some g⟩ ∧ charsetOf g = charsetOf h := by
  have hsort : (hs.mergeSort fun a b => decide (a.offset ≤ b.offset)).Pairwise fun f g => f.offset ≤ g.offset := by
    have := List.pairwise_mergeSort (le := fun f g : NameHeader => decide (f.offset ≤ g.offset)) (by intro a b c h1 h2; simp at *; omega)
      (by intro a b; simp; omega) hs
    simpa using this
  have hperm := List.mergeSort_perm hs fun a b => decide (a.offset ≤ b.offset)
  have hb := hg.behind
  obtain ⟨g, g1, g2, g3, g4⟩ := layout_mem size pool _ (6 + 12 * hs.length) none hsort
    ((List.Perm.pairwise_iff (R := SameOrApart) (fun {a b} h => by
      rcases h with ⟨e1, e2⟩ | h | h
      · exact .inl ⟨e1.symm, e2.symm⟩
      · exact .inr (.inr h)
      · exact .inr (.inl h)) hperm).2 hg.apart)
    (fun g hgm => hg.inside g (hperm.mem_iff.1 hgm)) (fun o n e => by cases e) h (hperm.mem_iff.2 hm) hn (by omega)
  refine ⟨g, ?_, hg.charset g (hperm.mem_iff.1 g1) h hm g2 g3⟩
  exact fieldAt_mem _ 0 (slots_all size pool hs) ⟨pool + h.offset, h.length, some g⟩ (List.mem_append_right _ (List.mem_append_right _ g4)) hn

/-- **C164.** The bytes of the text are those the record tells. -/
theorem C164_bytes (data : Bytes) (s : InputStream) (hs : stringInputStream data = .ok s) (base pool : Nat) (table : Bytes) (ht : table <+: data.drop base)
    (h : NameHeader) (g : Option NameHeader) (hin : pool + h.offset + h.length ≤ table.length) :
    slotBytes s base ⟨pool + h.offset, h.length, g⟩ = .ok (recordBytes table pool h) := by
  have hl : (recordBytes table pool h).length = h.length := by
    rw [recordBytes, List.length_take, List.length_drop]
    omega
  have hp : recordBytes table pool h <+: data.drop (base + (pool + h.offset)) := by
    obtain ⟨t, e⟩ := ht
    rw [← List.drop_drop, ← e, List.drop_append_of_le_length (by omega)]
    exact (List.take_prefix _ _).trans (List.prefix_append _ _)
  have := readBytes_prefix data s hs _ _ hp
  rw [hl] at this
  rw [slotBytes]
  simp only
  rw [this]

/-- The bytes of the headers. -/
def nameBytes (h : NameHeader) : Bytes :=
  beBytes 2 h.platform ++ (beBytes 2 h.encoding ++ (beBytes 2 h.language ++ (beBytes 2 h.name ++ (beBytes 2 h.length ++ beBytes 2 h.offset))))

def NameFits (h : NameHeader) : Prop :=
  h.platform < 65536 ∧ h.encoding < 65536 ∧ h.language < 65536 ∧ h.name < 65536 ∧ h.length < 65536 ∧ h.offset < 65536

theorem reads_name_header (h : NameHeader) (hf : NameFits h) : Reads nameHeader h (nameBytes h) := by
  obtain ⟨h1, h2, h3, h4, h5, h6⟩ := hf
  refine Reads.bind (reads_int_be 2 _ (by omega) (by omega)) ?_
  refine Reads.bind (reads_int_be 2 _ (by omega) (by omega)) ?_
  refine Reads.bind (reads_int_be 2 _ (by omega) (by omega)) ?_
  refine Reads.bind (reads_int_be 2 _ (by omega) (by omega)) ?_
  refine Reads.bind (reads_int_be 2 _ (by omega) (by omega)) ?_
  exact Reads.map (f := fun v => NameHeader.mk h.platform h.encoding h.language h.name h.length v) (reads_int_be 2 _ (by omega) (by omega))

/-- The beginning of the table: format 0, number and place of the texts, records. -/
def namesStart (pool : Nat) (hs : List NameHeader) : Bytes := beBytes 2 0 ++ (beBytes 2 hs.length ++ (beBytes 2 pool ++ hs.flatMap nameBytes))

/-- **C164.** All records are read, up to 300. -/
theorem C164_records (size pool : Nat) (hp : pool < 65536) (hs : List NameHeader) (hn : hs.length ≤ 300) (hf : ∀ h ∈ hs, NameFits h) :
    Reads (Ttf.names size) ⟨pool, hs, Ttf.slots size pool hs⟩ (namesStart pool hs) := by
  refine Reads.bind (reads_int_be 2 0 (by omega) (by omega)) ?_
  rw [names1, if_neg (by omega)]
  refine Reads.bind (reads_int_be 2 _ (by omega) (by omega)) ?_
  refine Reads.bind (reads_int_be 2 _ (by omega) (by omega)) ?_
  rw [names2, if_neg (by omega)]
  exact Reads.map (f := fun v => (⟨pool, v, Ttf.slots size pool v⟩ : Names)) (reads_times nameHeader nameBytes hs fun h hm => reads_name_header h (hf h hm))

/-- **C164.** A table of more than 300 records is refused. -/
theorem C164_many (size count pool : Nat) (hc : count < 65536) (hp : pool < 65536) (h : 300 < count) :
    Fails (Ttf.names size) .parser (beBytes 2 0 ++ (beBytes 2 count ++ beBytes 2 pool)) := by
  intro data s hs k stop hb hst
  have h0 := (reads_int_be 2 0 (by omega) (by omega)) data s hs k stop (prefix_left hb) (by simp [beBytes_length] at hst ⊢; omega)
  have b1 := drop_prefix hb
  have h1 := (reads_int_be 2 count (by omega) (by omega)) data s hs _ stop (prefix_left b1) (by simp [beBytes_length] at hst ⊢; omega)
  have b2 := drop_prefix b1
  have h2 := (reads_int_be 2 pool (by omega) (by omega)) data s hs _ stop b2 (by simp [beBytes_length] at hst ⊢; omega)
  show Rd.bind _ _ s stop (8 * k) = _
  rw [Rd.bind, h0]
  simp only
  rw [names1, if_neg (by omega)]
  show Rd.bind _ _ s stop _ = _
  rw [Rd.bind, h1]
  simp only
  show Rd.bind _ _ s stop _ = _
  rw [Rd.bind, h2]
  simp only
  rw [names2, if_pos h]
  rfl

/-! ### What is told -/

theorem attr_iff (n : Nat) (a : String) : Ttf.attrOf n = some a ↔ (n, a) ∈ nameAttr := by
  unfold Ttf.attrOf
  simp only [nameAttr, List.mem_cons, Prod.mk.injEq, List.not_mem_nil, or_false]
  by_cases h0 : n = 0
  · subst h0; simp [eq_comm]
  by_cases h3 : n = 3
  · subst h3; simp [eq_comm]
  by_cases h5 : n = 5
  · subst h5; simp [eq_comm]
  by_cases h8 : n = 8
  · subst h8; simp [eq_comm]
  by_cases h11 : n = 11
  · subst h11; simp [eq_comm]
  by_cases h14 : n = 14
  · subst h14; simp [eq_comm]
  simp [h0, h3, h5, h8, h11, h14]

theorem attr_text (n : Nat) (a : String) (h : (n, a) ∈ nameAttr) : a ∈ textAttrs ∧ (a = "version" ↔ n = 5) := by
  simp only [nameAttr, List.mem_cons, Prod.mk.injEq, List.not_mem_nil, or_false] at h
  rcases h with ⟨rfl, rfl⟩ | ⟨rfl, rfl⟩ | ⟨rfl, rfl⟩ | ⟨rfl, rfl⟩ | ⟨rfl, rfl⟩ | ⟨rfl, rfl⟩ <;> exact ⟨by decide, by decide⟩

theorem says_iff (decode : NameCharset → Bytes → Text) (table : Bytes) (pool : Nat) (h : NameHeader) (a : String) (t : Text) :
    NameSays decode table pool h a t ↔ (h.name, a) ∈ nameAttr ∧ t = Ttf.shorten a (decode (charsetOf h) (recordBytes table pool h)) := by
  constructor
  · intro hs
    cases hs with
    | version rest id text =>
      refine ⟨by rw [id]; decide, ?_⟩
      rw [Ttf.shorten, text, if_pos ⟨rfl, List.isPrefixOf_iff_prefix.2 (List.prefix_append _ _)⟩]
      rfl
    | plain attr id no =>
      refine ⟨id, ?_⟩
      rw [Ttf.shorten, if_neg]
      rintro ⟨e, hp⟩
      exact no ⟨(attr_text _ _ id).2.1 e, List.isPrefixOf_iff_prefix.1 hp⟩
  · rintro ⟨id, rfl⟩
    by_cases hv : a = "version" ∧ (txt "Version ").isPrefixOf (decode (charsetOf h) (recordBytes table pool h))
    · obtain ⟨rfl, hp⟩ := hv
      obtain ⟨rest, hr⟩ := List.isPrefixOf_iff_prefix.1 hp
      rw [Ttf.shorten, if_pos ⟨rfl, hp⟩, ← hr]
      exact .version rest ((attr_text _ _ id).2.1 rfl) hr.symm
    · rw [Ttf.shorten, if_neg hv]
      exact .plain a id fun ⟨e, hp⟩ => hv ⟨(attr_text _ _ id).2.2 e, List.isPrefixOf_iff_prefix.2 hp⟩

/-- The texts that the records tell for an attribute, in the order of the records. -/
inductive NameTexts (decode : NameCharset → Bytes → Text) (table : Bytes) (pool : Nat) (attr : String) : List NameHeader → List Text → Prop where
  | nil : NameTexts decode table pool attr [] []
  | here (h : NameHeader) (t : Text) (hs : List NameHeader) (ts : List Text) (tell : NameSays decode table pool h attr t) (rest : NameTexts decode table pool attr hs ts) :
      NameTexts decode table pool attr (h :: hs) (t :: ts)
  | other (h : NameHeader) (hs : List NameHeader) (ts : List Text) (no : ∀ t, ¬ NameSays decode table pool h attr t) (rest : NameTexts decode table pool attr hs ts) :
      NameTexts decode table pool attr (h :: hs) ts

theorem named_eq (decode : NameCharset → Bytes → Text) (table : Bytes) (size pool : Nat) (all : List NameHeader) (hg : TtfNamesGood size pool all) (h : NameHeader) (hm : h ∈ all) (hn : 0 < h.length) :
    Ttf.named decode table ⟨pool, all, Ttf.slots size pool all⟩ h = (Ttf.attrOf h.name).map fun a => (a, .value (.text (Ttf.shorten a (decode (charsetOf h) (recordBytes table pool h))))) := by
  obtain ⟨g, h1, h2⟩ := C164_found size pool all hg h hm hn
  rw [Ttf.named]
  simp only
  rw [h1]
  simp only [Option.bind_some, Ttf.slotText, Option.map_some, h2]
  rfl

theorem names_filter (decode : NameCharset → Bytes → Text) (table : Bytes) (size pool : Nat) (all : List NameHeader) (hg : TtfNamesGood size pool all) (hn : ∀ h ∈ all, 0 < h.length) (k : String)
    (hs : List NameHeader) (ts : List Text) (ht : NameTexts decode table pool k hs ts) (hm : ∀ h ∈ hs, h ∈ all) :
    (hs.filterMap (Ttf.named decode table ⟨pool, all, Ttf.slots size pool all⟩)).filter (fun p => p.1 = k) = ts.map fun t => (k, .value (.text t)) := by
  induction ht with
  | nil => rfl
  | here h t hs ts tell rest ih =>
    obtain ⟨h1, h2⟩ := (says_iff ..).1 tell
    rw [List.filterMap_cons_some (b := (k, .value (.text t))) (by rw [named_eq decode table size pool all hg h (hm h (by simp)) (hn h (hm h (by simp))), (attr_iff ..).2 h1, h2]; rfl)]
    rw [List.filter_cons_of_pos (by simp), List.map_cons, ih fun x hx => hm x (by simp [hx])]
  | other h hs ts no rest ih =>
    have hne := named_eq decode table size pool all hg h (hm h (by simp)) (hn h (hm h (by simp)))
    cases ha : Ttf.attrOf h.name with
    | none =>
      rw [List.filterMap_cons_none (by rw [hne, ha]; rfl)]
      exact ih fun x hx => hm x (by simp [hx])
    | some a =>
      rw [List.filterMap_cons_some (by rw [hne, ha]; rfl), List.filter_cons_of_neg]
      · exact ih fun x hx => hm x (by simp [hx])
      · simp only [decide_eq_true_eq]
        rintro rfl
        exact no _ ((says_iff ..).2 ⟨(attr_iff ..).1 ha, rfl⟩)

theorem names_tame (cfg : Config) (env : Env) (decode : NameCharset → Bytes → Text) (table : Bytes) (n : Names) (h : NameHeader) (p : String × Arg) (hp : Ttf.named decode table n h = some p) :
    p.1 ≠ "track_number" ∧ single p = [p] ∧ Tame cfg env p.1 p.2 := by
  have key : ∃ a t, p = (a, .value (.text t)) ∧ a ∈ textAttrs := by
    unfold Ttf.named at hp
    split at hp
    · cases hp
    · rename_i t _
      obtain ⟨a, ha, rfl⟩ := Option.map_eq_some_iff.1 hp
      exact ⟨a, _, rfl, (attr_text _ _ ((attr_iff ..).1 ha)).1⟩
  obtain ⟨a, t, rfl, ha⟩ := key
  have hne : a ≠ "track_number" := by rintro rfl; exact absurd ha (by decide)
  refine ⟨hne, ?_, tame_text cfg env a ha t⟩
  rw [single]
  simp only
  rw [trackTotal.eq_def]
  simp only
  rw [if_neg hne]

/-- **C164.** All the texts that the records tell for an attribute are told, in the order of the records, whatever else was told before of other attributes. -/
theorem names_told (cfg : Config) (env : Env) (hd : Text) (f : String → List Item) (hf : ∀ k', ∀ i ∈ f k', Good i.value) (decode : NameCharset → Bytes → Text) (table : Bytes) (size pool : Nat) (hs : List NameHeader)
    (hg : TtfNamesGood size pool hs) (hn : ∀ h ∈ hs, 0 < h.length) (k : String) (hk : k ∈ textAttrs) (hfk : f k = []) (ts : List Text) (ht : NameTexts decode table pool k hs ts)
    (hb : ∀ t ∈ ts, normalizeString cfg t ≠ []) (hp : (ts.map (toldName cfg)).Pairwise TextsApart) :
    toldFor (Ttf.extractNames cfg decode ⟨hd, filled env f⟩ table ⟨pool, hs, Ttf.slots size pool hs⟩) k = ts.map fun t => .text (toldName cfg t) := by
  have hsingle : ∀ l : List NameHeader, (l.filterMap (Ttf.named decode table ⟨pool, hs, Ttf.slots size pool hs⟩)).flatMap single = l.filterMap (Ttf.named decode table ⟨pool, hs, Ttf.slots size pool hs⟩) := by
    intro l
    have : ∀ q ∈ l.filterMap (Ttf.named decode table ⟨pool, hs, Ttf.slots size pool hs⟩), single q = [q] := by
      intro q hq
      obtain ⟨h, _, e⟩ := List.mem_filterMap.1 hq
      exact (names_tame cfg env decode table _ h q e).2.1
    rw [List.flatMap_congr this]
    simp
  obtain ⟨g, h1, -, h3⟩ := assign_tame cfg env hd (hs.filterMap (Ttf.named decode table ⟨pool, hs, Ttf.slots size pool hs⟩)) f hf (fun p hp q hq => by
    obtain ⟨h, _, e⟩ := List.mem_filterMap.1 hp
    obtain ⟨-, e2, e3⟩ := names_tame cfg env decode table _ h p e
    rw [e2, List.mem_singleton] at hq
    rw [hq]
    exact e3) []
  rw [List.append_nil] at h1
  rw [Ttf.extractNames]
  simp only
  rw [h1]
  simp only [assign]
  obtain ⟨d0, hd0, -⟩ := text_attr env k hk
  rw [told_filled env hd g k d0 hd0, h3, valsFor, hsingle, names_filter decode table size pool hs hg hn k hs ts ht (fun _ h => h), hfk]
  have := fold_apart cfg env k hk ts [] hb (by simpa using hp)
  rw [List.map_nil, List.nil_append] at this
  rw [this, List.map_map, List.map_map]
  rfl

theorem reg_last (env : Env) : (registerAllItems env).find? (fun d => d.key = "last_modification") =
    some { key := "last_modification", priority := 501, description := "Last modification", type := some [.datetime, .date], filter := some .datetime, textHandler := some (env.handler "humanDatetime"), conversion := some (setDatetime env), plainText := Metadata.plainText env } := by
  simp [registerAllItems]

theorem tame_moment (cfg : Config) (env : Env) (hw : Writes env) (k : String) (hk : k = "creation_date" ∨ k = "last_modification") (v : Value) (hv : Moment v) : Tame cfg env k (.value v) := by
  cases v with
  | none => rcases hk with rfl | rfl
            · exact ⟨_, reg_creation env, fun vs => .inl (by rw [Data.candidate])⟩
            · exact ⟨_, reg_last env, fun vs => .inl (by rw [Data.candidate])⟩
  | datetime t z =>
    cases z with
    | none =>
      obtain ⟨x, hx⟩ := hw.date t none
      rcases hk with rfl | rfl
      · exact ⟨_, reg_creation env, fun vs => .inr ⟨.datetime t none, none, rfl, fun _ _ h => (by cases h), by simp only [Data.createItem, hx, bind, Except.bind]; exact ⟨_, rfl⟩⟩⟩
      · exact ⟨_, reg_last env, fun vs => .inr ⟨.datetime t none, none, rfl, fun _ _ h => (by cases h), by simp only [Data.createItem, hx, bind, Except.bind]; exact ⟨_, rfl⟩⟩⟩
    | some z => exact absurd hv (by simp [Moment])
  | _ => exact absurd hv (by simp [Moment])

theorem moment_vals (cfg : Config) (env : Env) (hw : Writes env) (k : String) (hk : k = "creation_date" ∨ k = "last_modification") (v : Value) (hv : Moment v) : (addVals cfg env k (.value v) []).map Item.value = momentTold v := by
  cases v with
  | none => rcases hk with rfl | rfl
            · unfold addVals
              rw [reg_creation]
              simp only
              rw [add_none]
              rfl
            · unfold addVals
              rw [reg_last]
              simp only
              rw [add_none]
              rfl
  | datetime t z =>
    cases z with
    | none =>
      rcases hk with rfl | rfl
      · obtain ⟨vs, h1, h2⟩ := add_date cfg env hw { key := "creation_date", priority := 500, description := "Creation date", type := some [.datetime, .date], filter := some .datetime, textHandler := some (env.handler "humanDatetime"), conversion := some (setDatetime env), plainText := Metadata.plainText env } t rfl rfl rfl rfl rfl
        unfold addVals
        rw [reg_creation]
        simp only
        rw [h1]
        exact h2
      · obtain ⟨vs, h1, h2⟩ := add_date cfg env hw { key := "last_modification", priority := 501, description := "Last modification", type := some [.datetime, .date], filter := some .datetime, textHandler := some (env.handler "humanDatetime"), conversion := some (setDatetime env), plainText := Metadata.plainText env } t rfl rfl rfl rfl rfl
        unfold addVals
        rw [reg_last]
        simp only
        rw [h1]
        exact h2
    | some z => exact absurd hv (by simp [Moment])
  | _ => exact absurd hv (by simp [Moment])

theorem mac_moment (n : Nat) : Moment (Ttf.macValue n) := by
  unfold Ttf.macValue
  split <;> trivial

/-- The comments made of the font header. -/
def headComments (h : Head) : List Text := [txt "Smallest readable size in pixels: " ++ Metadata.decimal h.lowest ++ txt " pixels", txt "Font direction: " ++ Ttf.directionText h.direction]

theorem header_core (cfg : Config) (env : Env) (hw : Writes env) (t : Text) (h : Head) :
    ∃ g, Ttf.extractHeader cfg (Metadata.new env t) h = ⟨t, filled env g⟩ ∧ (∀ k', ∀ i ∈ g k', Good i.value) ∧
      (g "creation_date").map Item.value = momentTold (Ttf.macValue h.created) ∧ (g "last_modification").map Item.value = momentTold (Ttf.macValue h.modified) ∧
      g "comment" = ((headComments h).map fun v => (("comment", .value (.text v)) : String × Arg)).foldl (fun l p => addVals cfg env "comment" p.2 l) [] ∧
      ∀ k, k ≠ "creation_date" → k ≠ "last_modification" → k ≠ "comment" → g k = [] := by
  have hl : ∀ p ∈ ([("creation_date", .value (Ttf.macValue h.created)), ("last_modification", .value (Ttf.macValue h.modified)),
      ("comment", .value (.text (txt "Smallest readable size in pixels: " ++ Metadata.decimal h.lowest ++ txt " pixels"))), ("comment", .value (.text (txt "Font direction: " ++ Ttf.directionText h.direction)))] : List (String × Arg)),
      single p = [p] ∧ Tame cfg env p.1 p.2 := by
    intro p hp
    simp only [List.mem_cons, List.not_mem_nil, or_false] at hp
    rcases hp with rfl | rfl | rfl | rfl
    · exact ⟨by simp [single, trackTotal], tame_moment cfg env hw _ (.inl rfl) _ (mac_moment _)⟩
    · exact ⟨by simp [single, trackTotal], tame_moment cfg env hw _ (.inr rfl) _ (mac_moment _)⟩
    · exact ⟨by simp [single, trackTotal], tame_text cfg env _ (show "comment" ∈ textAttrs by decide) _⟩
    · exact ⟨by simp [single, trackTotal], tame_text cfg env _ (show "comment" ∈ textAttrs by decide) _⟩
  obtain ⟨g, h1, h2, h3⟩ := assign_tame cfg env t _ (fun _ => []) (by simp) (fun p hp q hq => by
    obtain ⟨e1, e2⟩ := hl p hp
    rw [e1, List.mem_singleton] at hq
    rw [hq]
    exact e2) []
  rw [List.flatMap_congr (fun p hp => (hl p hp).1)] at h3
  rw [List.append_nil] at h1
  refine ⟨g, ?_, h2, ?_, ?_, ?_, fun k k1 k2 k3 => ?_⟩
  · rw [show Metadata.new env t = ⟨t, filled env fun _ => []⟩ by rw [filled_nil]; rfl]
    exact h1
  · rw [h3]
    exact moment_vals cfg env hw _ (.inl rfl) _ (mac_moment _)
  · rw [h3]
    exact moment_vals cfg env hw _ (.inr rfl) _ (mac_moment _)
  · rw [h3]
    rfl
  · rw [h3]
    simp [valsFor, Ne.symm k1, Ne.symm k2, Ne.symm k3]

theorem header_step (cfg : Config) (env : Env) (hw : Writes env) (t : Text) (h : Option Head) :
    ∃ g, Ttf.headerStep cfg (Metadata.new env t) h = ⟨t, filled env g⟩ ∧ (∀ k', ∀ i ∈ g k', Good i.value) ∧
      ∀ k, k ≠ "creation_date" → k ≠ "last_modification" → k ≠ "comment" → g k = [] := by
  cases h with
  | none => exact ⟨fun _ => [], by rw [Ttf.headerStep, filled_nil]; rfl, by simp, fun _ _ _ _ => rfl⟩
  | some h =>
    obtain ⟨g, h1, h2, -, -, -, h3⟩ := header_core cfg env hw t h
    exact ⟨g, h1, h2, h3⟩

/-- **C164.** Copyright, title, version, author and URL of a font are the texts of the records for them, in the order of the records (when no record is empty and no two
records have bytes that overlap without being the same; of texts one of which is the beginning of another, C160_shorter, not all are told). -/
theorem C164_told_partial (cfg : Config) (env : Env) (hw : Writes env) (decode : NameCharset → Bytes → Text) (head : Option Head) (table : Bytes) (size pool : Nat) (hs : List NameHeader)
    (hg : TtfNamesGood size pool hs) (hn : ∀ h ∈ hs, 0 < h.length) (k : String) (hk : k ∈ ["copyright", "title", "version", "author", "url"]) (ts : List Text) (ht : NameTexts decode table pool k hs ts)
    (hb : ∀ t ∈ ts, normalizeString cfg t ≠ []) (hp : (ts.map (toldName cfg)).Pairwise TextsApart) :
    toldFor (Ttf.extract cfg env decode head (some (table, ⟨pool, hs, Ttf.slots size pool hs⟩))) k = ts.map fun t => .text (toldName cfg t) := by
  obtain ⟨g, h1, h2, h3⟩ := header_step cfg env hw (txt "Metadata") head
  rw [Ttf.extract, h1, Ttf.namesStep]
  have hk' : k ∈ textAttrs ∧ k ≠ "creation_date" ∧ k ≠ "last_modification" ∧ k ≠ "comment" := by
    simp only [List.mem_cons, List.not_mem_nil, or_false] at hk
    rcases hk with rfl | rfl | rfl | rfl | rfl <;> decide
  exact names_told cfg env _ g h2 decode table size pool hs hg hn k hk'.1 (h3 k hk'.2.1 hk'.2.2.1 hk'.2.2.2) ts ht hb hp

/-- **C164.** The dates of creation and modification are the moments that many seconds after 1904 (as `timestampMac32` tells them), unless they are out of the years told. -/
theorem C164_dates (cfg : Config) (env : Env) (hw : Writes env) (decode : NameCharset → Bytes → Text) (h : Head) (c m : Hachoir.Time.DateTime)
    (hc : Hachoir.Time.timestampMac32 h.created = .ok (.date c)) (hm : Hachoir.Time.timestampMac32 h.modified = .ok (.date m)) :
    toldFor (Ttf.extract cfg env decode (some h) none) "creation_date" = (if dateTold c then [.datetime c none] else []) ∧
    toldFor (Ttf.extract cfg env decode (some h) none) "last_modification" = (if dateTold m then [.datetime m none] else []) := by
  obtain ⟨g, h1, -, h3, h4, -⟩ := header_core cfg env hw (txt "Metadata") h
  have e1 : Ttf.macValue h.created = .datetime c none := by rw [Ttf.macValue, hc]
  have e2 : Ttf.macValue h.modified = .datetime m none := by rw [Ttf.macValue, hm]
  rw [e1] at h3
  rw [e2] at h4
  rw [Ttf.extract, Ttf.headerStep, h1]
  exact ⟨by rw [Ttf.namesStep, told_filled env _ g _ _ (reg_creation env), h3]; rfl, by rw [Ttf.namesStep, told_filled env _ g _ _ (reg_last env), h4]; rfl⟩

/-- **C164.** The smallest size and the direction are told as comments. -/
theorem C164_comments (cfg : Config) (env : Env) (hw : Writes env) (decode : NameCharset → Bytes → Text) (h : Head) (hb : ∀ t ∈ headComments h, normalizeString cfg t ≠ [])
    (hp : ((headComments h).map (toldName cfg)).Pairwise TextsApart) :
    toldFor (Ttf.extract cfg env decode (some h) none) "comment" = (headComments h).map fun t => .text (toldName cfg t) := by
  obtain ⟨g, h1, -, -, -, h3, -⟩ := header_core cfg env hw (txt "Metadata") h
  obtain ⟨d0, hd0, -⟩ := text_attr env "comment" (by decide)
  rw [Ttf.extract, Ttf.headerStep, h1, Ttf.namesStep, told_filled env _ g _ _ hd0, h3]
  have := fold_apart cfg env "comment" (by decide) (headComments h) [] hb (by simpa using hp)
  rw [List.map_nil, List.nil_append] at this
  rw [this, List.map_map, List.map_map]
  rfl

/-- The text for a direction (OpenType: `fontDirectionHint` is a signed number). -/
def directionSpec (d : Int) : Option String :=
  if d = 0 then some "Mixed directional" else if d = 1 then some "Left to right" else if d = 2 then some "Left to right + neutrals"
  else if d = -1 then some "Right to left" else if d = -2 then some "Right to left + neutrals" else none

/-- **C164.** The directions from left to right are told as they should. -/
theorem C164_direction_partial (d : Nat) (h : d ≤ 2) : directionSpec d = some (if d = 0 then "Mixed directional" else if d = 1 then "Left to right" else "Left to right + neutrals") ∧
    Ttf.directionText d = (directionSpec d).elim [] txt := by
  have : d = 0 ∨ d = 1 ∨ d = 2 := by omega
  rcases this with rfl | rfl | rfl <;> exact ⟨rfl, rfl⟩

/-- **C164** (disagreement): the directions from right to left are told as 65535 and 65534. -/
theorem C164_right_to_left : directionSpec (-1) = some "Right to left" ∧ Ttf.directionText (((-1 : Int) % 65536).toNat) = txt "65535" ∧
    directionSpec (-2) = some "Right to left + neutrals" ∧ Ttf.directionText (((-2 : Int) % 65536).toNat) = txt "65534" :=
  ⟨rfl, by decide +kernel, rfl, by decide +kernel⟩

/-! ### Records with the same place -/

theorem sort_two (g h : NameHeader) (e : g.offset ≤ h.offset) : [g, h].mergeSort (fun a b => decide (a.offset ≤ b.offset)) = [g, h] :=
  List.mergeSort_of_pairwise (by simpa using e)

theorem slots_two (size pool : Nat) (g h : NameHeader) (e : g.offset = h.offset) (hg : 0 < g.length) (hp : 30 ≤ pool) (hr : pool + g.offset + g.length ≤ size) :
    fieldAt (Ttf.slots size pool [g, h]) (pool + h.offset) = some ⟨pool + g.offset, g.length, some g⟩ := by
  have hm : (⟨pool + g.offset, g.length, some g⟩ : Slot) ∈ Ttf.slots size pool [g, h] := by
    refine List.mem_append_right _ (List.mem_append_right _ ?_)
    rw [sort_two g h (by omega), layout, if_neg (by simp), if_neg (by simp; omega), if_neg (by omega), if_neg (by omega), if_neg (by omega)]
    exact List.mem_append_right _ (List.mem_cons_self ..)
  rw [← e]
  exact fieldAt_mem _ 0 (slots_all size pool [g, h]) _ hm hg

/-- **C164** (disagreement): of two records whose texts begin at the same byte but have different lengths (the name of the family is the beginning of the full name), both are
told with the text of the first. -/
theorem C164_beginning (decode : NameCharset → Bytes → Text) (table : Bytes) (size pool : Nat) (g h : NameHeader) (e : g.offset = h.offset) (_hl : g.length ≠ h.length) (hg : 0 < g.length)
    (hp : 30 ≤ pool) (hr : pool + g.offset + g.length ≤ size) (hn : h.name = 3) :
    Ttf.named decode table ⟨pool, [g, h], Ttf.slots size pool [g, h]⟩ h = some ("title", .value (.text (decode (charsetOf g) (recordBytes table pool g)))) := by
  rw [Ttf.named]
  simp only
  rw [slots_two size pool g h e hg hp hr, hn]
  rfl

/-- **C164** (disagreement): an empty record is told with the text of the record that begins at its place. -/
theorem C164_empty (decode : NameCharset → Bytes → Text) (table : Bytes) (size pool : Nat) (g h : NameHeader) (e : g.offset = h.offset) (_hh : h.length = 0) (hg : 0 < g.length)
    (hp : 30 ≤ pool) (hr : pool + g.offset + g.length ≤ size) (hn : h.name = 0) :
    Ttf.named decode table ⟨pool, [g, h], Ttf.slots size pool [g, h]⟩ h = some ("copyright", .value (.text (decode (charsetOf g) (recordBytes table pool g)))) := by
  rw [Ttf.named]
  simp only
  rw [slots_two size pool g h e hg hp hr, hn]
  rfl

/-- The texts of names by platform and encoding: Unicode (2.0) and Windows (Unicode) are UTF-16, Macintosh (Roman) is MacRoman. -/
def nameCharsets : List ((Nat × Nat) × NameCharset) := [((0, 3), .utf16), ((1, 0), .macRoman), ((3, 1), .utf16)]

/-- **C164**: the charset of a name is that of its platform and encoding; every other pair is read as Latin-1. -/
theorem C164_charset (h : NameHeader) (c : NameCharset) : charsetOf h = c ↔
    ((h.platform, h.encoding), c) ∈ nameCharsets ∨ ((h.platform, h.encoding) ∉ nameCharsets.map Prod.fst ∧ c = .latin1) := by
  unfold charsetOf nameCharsets
  simp only [List.mem_cons, List.not_mem_nil, or_false, List.map_cons, List.map_nil, Prod.mk.injEq]
  by_cases h1 : h.platform = 0 ∧ h.encoding = 3
  · rw [if_pos h1]
    simp [h1, eq_comm]
  · rw [if_neg h1]
    by_cases h2 : h.platform = 1 ∧ h.encoding = 0
    · rw [if_pos h2]
      simp [h2, eq_comm]
    · rw [if_neg h2]
      by_cases h3 : h.platform = 3 ∧ h.encoding = 1
      · rw [if_pos h3]
        simp [h3, eq_comm]
      · rw [if_neg h3]
        simp [h1, h2, h3, eq_comm]

example : charsetOf ⟨1, 25, 0, 3, 2, 18⟩ = .latin1 := (C164_charset _ _).2 (Or.inr ⟨by decide, rfl⟩)

/-! ### Examples -/

/-- Two records: a title in Latin letters, and a version in UTF-16; the texts are in the opposite order. -/
def ttfRecords : List NameHeader := [⟨1, 0, 0, 3, 2, 18⟩, ⟨3, 1, 1033, 5, 18, 0⟩]

example : TtfNamesGood 60 30 ttfRecords :=
  ⟨by decide, by decide, by unfold ttfRecords; simp [SameOrApart], by decide⟩

example : ∀ h ∈ ttfRecords, NameFits h := by unfold NameFits; decide

/-- The records of a table of 60 bytes: `Version 2` and `Ab`. -/
example : NameTexts (fun c b => if c = .utf16 then (b.map UInt8.toNat).filter (· ≠ 0) else b.map UInt8.toNat)
    (List.replicate 30 0 ++ [0, 86, 0, 101, 0, 114, 0, 115, 0, 105, 0, 111, 0, 110, 0, 32, 0, 50, 65, 98]) 30 "version" ttfRecords [[50]] := by
  refine .other _ _ _ (fun t h => ?_) (.here _ _ _ _ (.version [50] rfl (by decide +kernel)) .nil)
  have := ((says_iff ..).1 h).1
  revert this
  decide

end Hachoir.Props

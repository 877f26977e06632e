import Verif.Formats.Ogg
import Verif.Props.Mbr
import Verif.Props.PrefixInt

/-!
# C98: pages, streams and packets of Ogg files
-/

namespace Hachoir.Props
open Hachoir Hachoir.Stream Hachoir.Formats Hachoir.Formats.Ogg Spec

/-! ## What the bytes of a page are -/

/-- What a page says; `closed` are the sizes of the parts of packets that end in the page, and
`tail` is the number of times 255 for the part of one that goes on in the next page. -/
structure OggSpec where
  continued : Bool
  first : Bool
  last : Bool
  granule : Nat
  serial : Nat
  number : Nat
  checksum : Nat
  closed : List Nat
  tail : Nat
  content : Bytes

/-- The sizes of the parts of packets. -/
def OggSpec.parts (p : OggSpec) : List Nat := p.closed ++ if p.tail = 0 then [] else [255 * p.tail]

/-- The table of segments. -/
def OggSpec.table (p : OggSpec) : Bytes := p.closed.flatMap xiphBytes ++ List.replicate p.tail 255

def OggSpec.Good (p : OggSpec) : Prop :=
  p.granule < 2 ^ 64 ∧ p.serial < 2 ^ 32 ∧ p.number < 2 ^ 32 ∧ p.checksum < 2 ^ 32 ∧ p.table.length < 256 ∧
    p.content.length = p.parts.sum

def flagByte (p : OggSpec) : UInt8 := UInt8.ofNat (p.continued.toNat + 2 * p.first.toNat + 4 * p.last.toNat)

/-- The bytes of a page. -/
def OggSpec.bytes (p : OggSpec) : Bytes :=
  [0x4f, 0x67, 0x67, 0x53] ++ ([0] ++ ([flagByte p] ++ (leBytes 8 p.granule ++ (leBytes 4 p.serial ++ (leBytes 4 p.number ++
    (leBytes 4 p.checksum ++ ([UInt8.ofNat p.table.length] ++ (p.table ++ p.content))))))))

/-- The places of the parts of packets that are not empty. -/
def partPlaces : Nat → List Nat → List (Nat × Nat)
  | _, [] => []
  | k, n :: ns => (if n = 0 then [] else [(8 * k, 8 * n)]) ++ partPlaces (k + n) ns

/-- The page as fields, when it is the byte `k` of the file. -/
def OggSpec.page (p : OggSpec) (k : Nat) : Page :=
  ⟨8 * k, 8 * p.bytes.length, p.continued, p.first, p.last, p.granule, p.serial, p.number, p.checksum, p.parts,
    partPlaces (k + 27 + p.table.length) p.parts⟩

/-- Pages one behind the other. -/
def oggPlaces : Nat → List OggSpec → List Page
  | _, [] => []
  | k, p :: ps => p.page k :: oggPlaces (k + p.bytes.length) ps

/-! ## Lemmas -/

theorem page_length (p : OggSpec) : p.bytes.length = 27 + p.table.length + p.content.length := by
  unfold OggSpec.bytes
  simp only [List.length_append, List.length_cons, List.length_nil, (leBytes_spec 8 _).1, (leBytes_spec 4 _).1]
  omega

theorem chunks_eq (k : Nat) (l : List Nat) : chunksFrom (8 * k) l = partPlaces k l := by
  induction l generalizing k with
  | nil => rfl
  | cons n ns ih =>
    rw [chunksFrom, partPlaces]
    by_cases h : n = 0
    · subst h
      simpa using ih k
    · rw [if_pos h, if_neg h, show 8 * k + n * 8 = 8 * (k + n) by omega, ih, Nat.mul_comm n 8]
      rfl

/-- A part that goes on in the next page. -/
theorem open_loop (data : Bytes) (s : InputStream) (hs : stringInputStream data = .ok s) (q k n size value : Nat)
    (hn : q < n) (hp : List.replicate q (255 : UInt8) <+: data.drop k) :
    xiphLoop s (some (size + 8 * q)) n (8 * k : Nat) size value = .ok (value + 255 * q, size + 8 * q) := by
  induction q generalizing k n size value with
  | zero =>
    obtain ⟨n, rfl⟩ : ∃ m, n = m + 1 := ⟨n - 1, by omega⟩
    rw [xiphLoop, if_neg (by simp)]
    simp
  | succ q ih =>
    obtain ⟨n, rfl⟩ : ∃ m, n = m + 1 := ⟨n - 1, by omega⟩
    rw [List.replicate_succ] at hp
    obtain ⟨bs, hd, hp2⟩ := cons_of_prefix hp
    have hrb : (255 : UInt8).toNat = 255 := rfl
    rw [xiphLoop, if_pos (by simp), readBits_byte data s hs k .little (by simp), hd]
    simp only [hrb]
    rw [if_neg (by omega), addr_succ]
    have := ih (k + 1) n (size + 8) (value + 255) (by omega) (by rw [drop_succ_of_cons data k _ bs hd]; exact hp2)
    rw [show size + 8 + 8 * q = size + 8 * (q + 1) by omega] at this
    rw [this, show value + 255 + 255 * q = value + 255 * (q + 1) by omega]

theorem lacing_open (data : Bytes) (s : InputStream) (hs : stringInputStream data = .ok s)
    (vs : List Nat) (q k n m : Nat) (hn : data.length < n) (hm : vs.length + 1 < m)
    (hp : vs.flatMap xiphBytes ++ List.replicate q 255 <+: data.drop k) :
    lacingLoop s n m (8 * k : Nat) (8 * (vs.flatMap xiphBytes ++ List.replicate q (255 : UInt8)).length) =
      .ok ((vs.map fun v => (v, 8 * (v / 255 + 1))) ++ if q = 0 then [] else [(255 * q, 8 * q)]) := by
  induction vs generalizing k m with
  | nil =>
    obtain ⟨m, rfl⟩ : ∃ m', m = m' + 1 + 1 := ⟨m - 2, by omega⟩
    simp only [List.flatMap_nil, List.nil_append, List.length_replicate, List.map_nil] at hp ⊢
    by_cases h : q = 0
    · subst h
      rw [lacingLoop, if_pos (by simp), if_pos rfl]
    · rw [lacingLoop, if_neg (by omega), xiphInt]
      have hl := hp.length_le
      simp only [List.length_replicate, List.length_drop] at hl
      have := open_loop data s hs q k n 0 0 (by omega) hp
      simp only [Nat.zero_add] at this
      rw [this]
      simp only [Nat.sub_self]
      rw [lacingLoop, if_pos rfl, if_neg h]
  | cons v vs ih =>
    obtain ⟨m, rfl⟩ : ∃ m', m = m' + 1 := ⟨m - 1, by omega⟩
    have hxl : (xiphBytes v).length = v / 255 + 1 := by simp [xiphBytes]
    rw [List.flatMap_cons, List.append_assoc] at hp
    simp only [List.length_cons] at hm
    rw [List.flatMap_cons, List.append_assoc, List.length_append, hxl]
    rw [lacingLoop, if_neg (by omega),
      C55_xiph data s hs _ v k n hn (fun m hm => by simp only [Option.some.injEq] at hm; omega) (prefix_left hp)]
    simp only
    have hp2 := drop_prefix hp
    rw [hxl] at hp2
    have := ih (k + (v / 255 + 1)) m (by omega) hp2
    rw [show ((8 * k : Nat) : Int) + ((8 * (v / 255 + 1) : Nat) : Int) =
        ((8 * (k + (v / 255 + 1)) : Nat) : Int) by push_cast; ring,
      show 8 * (v / 255 + 1 + (vs.flatMap xiphBytes ++ List.replicate q (255 : UInt8)).length) - 8 * (v / 255 + 1) =
        8 * (vs.flatMap xiphBytes ++ List.replicate q (255 : UInt8)).length by omega, this]
    rfl

theorem le_read (data : Bytes) (s : InputStream) (hs : stringInputStream data = .ok s) (n k v : Nat) (hn : 0 < n)
    (hv : v < 256 ^ n) (hp : leBytes n v <+: data.drop k) (ad : Nat) (had : ad = 8 * k) :
    readBits s (ad : Int) (8 * n) .little = .ok v := by
  subst had
  obtain ⟨hl, hle⟩ := leBytes_spec n v
  have e : (256 : Nat) ^ n = 2 ^ (8 * n) := by rw [Nat.pow_mul]
  rw [readBits_in data s hs k 0 (8 * n) _ hp (by rw [hl]; omega) (by rw [hl]; omega) ((8 * k : Nat) : Int) rfl,
    hle hv, Nat.pow_zero, Nat.div_one, Nat.mod_eq_of_lt (by rw [← e]; exact hv)]

theorem closed_count (vs : List Nat) : vs.length ≤ (vs.flatMap xiphBytes).length := by
  induction vs with
  | nil => simp
  | cons v vs ih => simp only [List.flatMap_cons, List.length_append, List.length_cons, xiphBytes, List.length_replicate, List.length_nil]; omega

/-! ## Pages -/

/-- A page is read as written. -/
theorem C98_page (data : Bytes) (s : InputStream) (hs : stringInputStream data = .ok s) (p : OggSpec) (hg : p.Good)
    (k n m stop : Nat) (hn : data.length < n) (hm : 256 < m) (hp : p.bytes <+: data.drop k)
    (hstop : 8 * (k + p.bytes.length) ≤ stop) :
    readPage s n m (8 * k) stop = .ok (p.page k) := by
  have hlen := page_length p
  obtain ⟨g1, g2, g3, g4, g5, g6⟩ := hg
  have hp' := hp
  unfold OggSpec.bytes at hp'
  have q1 := drop_prefix hp'
  rw [show ([0x4f, 0x67, 0x67, 0x53] : Bytes).length = 4 from rfl] at q1
  have q2 := drop_prefix q1
  rw [show ([0] : Bytes).length = 1 from rfl] at q2
  have q3 := drop_prefix q2
  rw [show ([flagByte p] : Bytes).length = 1 from rfl] at q3
  have q4 := drop_prefix q3
  rw [(leBytes_spec 8 _).1] at q4
  have q5 := drop_prefix q4
  rw [(leBytes_spec 4 _).1] at q5
  have q6 := drop_prefix q5
  rw [(leBytes_spec 4 _).1] at q6
  have q7 := drop_prefix q6
  rw [(leBytes_spec 4 _).1] at q7
  have q8 := drop_prefix q7
  rw [show ([UInt8.ofNat p.table.length] : Bytes).length = 1 from rfl] at q8
  have r0 : readBytes s ((8 * k : Nat) : Int) 4 = _ := readBytes_prefix data s hs k _ (prefix_left hp')
  have fl := fun a b h ad had => readBits_in data s hs (k + 4 + 1) a b _ (prefix_left q2) h (by simp) ad had
  have flv : ofBytesLE [flagByte p] = p.continued.toNat + 2 * p.first.toNat + 4 * p.last.toNat := by
    simp only [ofBytesLE, flagByte, UInt8.toNat_ofNat']
    cases p.continued <;> cases p.first <;> cases p.last <;> rfl
  rw [flv, show ([flagByte p] : Bytes).length = 1 from rfl] at fl
  have f0 : readBits s ((8 * k + 40 : Nat) : Int) 1 .little = .ok p.continued.toNat := by
    rw [fl 0 1 (by omega) _ (by push_cast; ring)]
    cases p.continued <;> cases p.first <;> cases p.last <;> rfl
  have f1 : readBits s ((8 * k + 41 : Nat) : Int) 1 .little = .ok p.first.toNat := by
    rw [fl 1 1 (by omega) _ (by push_cast; ring)]
    cases p.continued <;> cases p.first <;> cases p.last <;> rfl
  have f2 : readBits s ((8 * k + 42 : Nat) : Int) 1 .little = .ok p.last.toNat := by
    rw [fl 2 1 (by omega) _ (by push_cast; ring)]
    cases p.continued <;> cases p.first <;> cases p.last <;> rfl
  have r3 := le_read data s hs 8 _ _ (by omega) (by omega) (prefix_left q3) (8 * k + 48) (by omega)
  have r4 := le_read data s hs 4 _ _ (by omega) (by omega) (prefix_left q4) (8 * k + 112) (by omega)
  have r5 := le_read data s hs 4 _ _ (by omega) (by omega) (prefix_left q5) (8 * k + 144) (by omega)
  have r6 := le_read data s hs 4 _ _ (by omega) (by omega) (prefix_left q6) (8 * k + 176) (by omega)
  have r7 := byte_in data s hs _ _ g5 (prefix_left q7) ((8 * k + 208 : Nat) : Int) (by push_cast; ring)
  unfold readPage
  simp only [bind, Except.bind, pure, Except.pure]
  rw [r0]; simp only
  rw [f0]; simp only
  rw [f1]; simp only
  rw [f2]; simp only
  rw [r3]; simp only
  rw [r4]; simp only
  rw [r5]; simp only
  rw [r6]; simp only
  rw [r7]; simp only
  have hlac : readTable s n m (8 * k + 216) p.table.length = .ok p.parts := by
    have hc := closed_count p.closed
    have htl : p.table.length = (p.closed.flatMap xiphBytes).length + p.tail := by
      unfold OggSpec.table; rw [List.length_append, List.length_replicate]
    unfold readTable OggSpec.parts
    by_cases h0 : p.table.length = 0
    · rw [if_neg (by omega)]
      rw [show p.closed = [] from List.length_eq_zero_iff.1 (by omega), if_pos (by omega)]
      rfl
    · have := lacing_open data s hs p.closed p.tail (k + 27) n m hn (by omega) (by
        have := prefix_left q8
        rw [show k + 4 + 1 + 1 + 8 + 4 + 4 + 4 + 1 = k + 27 by omega] at this
        exact this)
      rw [List.length_append, List.length_replicate, ← htl] at this
      rw [if_pos h0, lacing, show 8 * k + 216 = 8 * (k + 27) by omega, Nat.mul_comm p.table.length 8, this]
      simp only [List.map_append, List.map_map]
      congr 2
      · exact List.map_id' _
      · split <;> rfl
  rw [hlac]
  simp only
  have hsz : (27 + p.table.length + p.parts.sum) * 8 = 8 * p.bytes.length := by omega
  rw [hsz, if_neg (by omega)]
  unfold OggSpec.page
  rw [show 8 * k + (27 + p.table.length) * 8 = 8 * (k + 27 + p.table.length) by omega, chunks_eq]
  cases p.continued <;> cases p.first <;> cases p.last <;> rfl

/-- The pages of a file. -/
theorem C98_pages (data : Bytes) (s : InputStream) (hs : stringInputStream data = .ok s) (ps : List OggSpec)
    (hg : ∀ p ∈ ps, p.Good) (k n m fuel : Nat) (hn : data.length < n) (hm : 256 < m) (hf : ps.length < fuel)
    (hp : ps.flatMap OggSpec.bytes <+: data.drop k) :
    readPages s n m fuel (8 * k) (8 * (k + (ps.flatMap OggSpec.bytes).length)) = .ok (oggPlaces k ps) := by
  induction ps generalizing k fuel with
  | nil =>
    obtain ⟨f, rfl⟩ : ∃ f, fuel = f + 1 := ⟨fuel - 1, by omega⟩
    rw [readPages, if_neg (by simp)]
    rfl
  | cons p ps ih =>
    simp only [List.length_cons] at hf
    obtain ⟨f, rfl⟩ : ∃ f, fuel = f + 1 := ⟨fuel - 1, by omega⟩
    rw [List.flatMap_cons] at hp ⊢
    have hlen := page_length p
    have hl2 : (p.bytes ++ ps.flatMap OggSpec.bytes).length = p.bytes.length + (ps.flatMap OggSpec.bytes).length :=
      List.length_append
    rw [hl2]
    rw [readPages, if_pos (by omega), C98_page data s hs p (hg p (by simp)) k n m _ hn hm (prefix_left hp) (by omega)]
    simp only
    have := ih (fun q hq => hg q (by simp [hq])) (k + p.bytes.length) f (by omega) (drop_prefix hp)
    rw [show 8 * k + (p.page k).size = 8 * (k + p.bytes.length) by
        show 8 * k + 8 * p.bytes.length = _
        omega,
      show k + (p.bytes.length + (ps.flatMap OggSpec.bytes).length) = k + p.bytes.length + (ps.flatMap OggSpec.bytes).length by omega,
      this]
    rfl

/-! ## Streams -/

/-- A list up to the first member with a property. -/
def upTo {α : Type} (f : α → Bool) : List α → List α
  | [] => []
  | a :: l => a :: if f a then [] else upTo f l

/-- The pages of a stream, if no page of the file is without data. -/
theorem C98_stream_partial (p : Page) (ps : List Page) (hd : ∀ q ∈ ps, q.segments.sum ≠ 0) :
    streamPages p ps = upTo (·.last) (p :: ps.filter (·.serial == p.serial)) := by
  have key : chain p.serial ps = upTo (·.last) (ps.filter (·.serial == p.serial)) := by
    induction ps with
    | nil => rfl
    | cons q ps ih =>
      rw [chain, if_neg (hd q (by simp)), List.filter_cons]
      have := ih (fun r hr => hd r (by simp [hr]))
      by_cases h : q.serial = p.serial
      · rw [if_pos h, this, h, beq_self_eq_true, if_pos rfl]; rfl
      · rw [if_neg h, beq_eq_false_iff_ne.2 h, if_neg (by simp), this]
  rw [streamPages, upTo, key]

/-- A page without data, of whatever stream, hides all pages behind it. -/
theorem C98_stream_cut (p q : Page) (a b : List Page) (hq : q.segments.sum = 0) :
    streamPages p (a ++ q :: b) = streamPages p a := by
  have key : chain p.serial (a ++ q :: b) = chain p.serial a := by
    induction a with
    | nil => simp only [List.nil_append, chain, if_pos hq]
    | cons r a ih => rw [List.cons_append, chain, chain, ih]
  rw [streamPages, streamPages, key]

/-! ## Packets -/

/-- The packets of a stream in whole are the parts that end in its pages (with the parts before), so
that there are as many as there are ends.  The code gives those of the first page except the last, and
then fails. -/
theorem C98_packets (p : Page) (hc : p.continued = false) (l : List Nat) (v : Nat) (hs : p.segments = l ++ [v]) :
    packets p = ((l.filter (· ≠ 0)).map (· * 8), .attribute) := by
  have key : ∀ (l : List Nat) (a : Nat), pagePackets false (some a) (l ++ [v])
      = .ok (((a :: l).filter (· ≠ 0)).map (· * 8), some v) := by
    intro l
    induction l with
    | nil =>
      intro a
      rw [List.nil_append, pagePackets, if_neg (by simp), pagePackets]
      by_cases h : a = 0 <;> simp [h]
    | cons b l ih =>
      intro a
      rw [List.cons_append, pagePackets, if_neg (by simp), ih]
      by_cases h : a = 0 <;> simp [h]
  unfold packets
  rw [hc, hs]
  cases l with
  | nil => rfl
  | cons a l =>
    rw [List.cons_append, pagePackets, if_neg (by simp), key]

/-- Reading the packets of a stream never ends well. -/
theorem C98_packets_fail (p : Page) : (packets p).2 = .attribute ∨ (packets p).2 = .type := by
  unfold packets
  cases p.continued with
  | false =>
    have : ∀ (l : List Nat) (o : Option Nat), ∃ x, pagePackets false o l = .ok x := by
      intro l
      induction l with
      | nil => intro o; exact ⟨_, rfl⟩
      | cons a l ih =>
        intro o
        obtain ⟨x, hx⟩ := ih (some a)
        cases o <;> simp only [pagePackets, Bool.false_eq_true, if_false, hx] <;> exact ⟨_, rfl⟩
    obtain ⟨x, hx⟩ := this p.segments none
    rw [hx]
    exact .inl rfl
  | true =>
    cases p.segments with
    | nil => exact .inl rfl
    | cons a l => exact .inr rfl

/-! ## Examples -/

/-- A page of a stream with two packets, and one that goes on in the second page. -/
def sampleOgg : List OggSpec :=
  [⟨false, true, false, 0, 7, 0, 99, [3, 0], 1, List.replicate 258 1⟩, ⟨true, false, true, 5, 7, 1, 98, [2], 0, [1, 2]⟩]

theorem sampleOgg_good : ∀ p ∈ sampleOgg, p.Good := by
  intro p hp
  simp only [sampleOgg, List.mem_cons, List.not_mem_nil, or_false] at hp
  rcases hp with rfl | rfl
  · exact ⟨by decide, by decide, by decide, by decide, by decide +kernel, by decide +kernel⟩
  · exact ⟨by decide, by decide, by decide, by decide, by decide +kernel, by decide +kernel⟩

example (s : InputStream) (hs : stringInputStream (sampleOgg.flatMap OggSpec.bytes) = .ok s) :
    readPages s 1000 300 3 0 (8 * (sampleOgg.flatMap OggSpec.bytes).length) = .ok (oggPlaces 0 sampleOgg) := by
  have := C98_pages _ s hs sampleOgg sampleOgg_good 0 1000 300 3 (by decide +kernel) (by decide) (by decide) (List.prefix_refl _)
  simpa using this

example : ((oggPlaces 0 sampleOgg).map fun p => (p.addr, p.size, p.segments, p.chunks))
    = [(0, 8 * 288, [3, 0, 255], [(8 * 30, 24), (8 * 33, 8 * 255)]), (8 * 288, 8 * 30, [2], [(8 * 316, 16)])] := by
  decide +kernel

/-- Two packets are complete in the first page, but only one size is given before the exception. -/
example : (oggPlaces 0 sampleOgg).map packets = [([24], .attribute), ([], .type)] := by decide +kernel

end Hachoir.Props

import Verif.Formats.Swf
import Verif.Props.Packed
import Verif.Props.Tcpdump
import Verif.Props.Cab
import Verif.Props.Asf
import Verif.Props.Lnk
import Verif.Props.Arj

/-!
# C156: Flash movies
-/

namespace Hachoir.Props
open Hachoir Hachoir.Stream Hachoir.Field Hachoir.Formats Spec

/-! ### Specification -/

/-- A signed number in `n` bits. -/
def twosBits (n : Nat) (v : Int) : Nat := (v % (2 ^ n : Nat)).toNat

/-- A rectangle: the number of bits and four signed numbers. -/
structure SwfRect where
  nbits : Nat
  xmin : Int
  xmax : Int
  ymin : Int
  ymax : Int

def swfRectGood (r : SwfRect) : Prop := 0 < r.nbits ∧ r.nbits < 32 ∧ ∀ v ∈ [r.xmin, r.xmax, r.ymin, r.ymax], -(2 ^ (r.nbits - 1) : Nat) ≤ v ∧ v < (2 ^ (r.nbits - 1) : Nat)

/-- The padding up to a whole byte. -/
def swfPad (n : Nat) : Nat := 8 * ((5 + 4 * n + 7) / 8) - (5 + 4 * n)

def swfRectValues (r : SwfRect) : List Nat := [r.nbits, twosBits r.nbits r.xmin, twosBits r.nbits r.xmax, twosBits r.nbits r.ymin, twosBits r.nbits r.ymax, 0]

def swfRectBytes (r : SwfRect) : Bytes :=
  beBytes ((5 + 4 * r.nbits + 7) / 8) (joinBE [5, r.nbits, r.nbits, r.nbits, r.nbits, swfPad r.nbits] (swfRectValues r))

def swfNamed (e : Nat × Bytes) : Bytes := leBytes 2 e.1 ++ (e.2 ++ [0])

def swfNumber (n : Nat) : Option Nat → Bytes
  | none => []
  | some v => leBytes n v

def swfEnvelope : Option (List (List Nat)) → Bytes
  | none => []
  | some es => leBytes 1 es.length ++ es.flatMap (numsBytes [4, 2, 2])

def swfSigned (n : Nat) (v : Int) : Bytes := leBytes n (v % (256 ^ n : Nat)).toNat

/-- The bytes of the content of a tag. -/
def swfContentBytes : Swf.Content → Bytes
  | .empty => []
  | .raw b => b
  | .color rgb => numsBytes [1, 1, 1] rgb
  | .sound id flags samples seek data => leBytes 2 id ++ (leBytes 1 (joinLE [1, 1, 2, 4] flags) ++ (leBytes 4 samples ++ (swfNumber 2 seek ++ data)))
  | .start id flags a b c env => leBytes 2 id ++ (leBytes 1 (joinLE [1, 1, 1, 1, 1, 1, 2] flags) ++ (swfNumber 4 a ++ (swfNumber 4 b ++ (swfNumber 2 c ++ swfEnvelope env))))
  | .stream p f samples latency => leBytes 1 (joinLE [1, 1, 2, 4] p) ++ (leBytes 1 (joinLE [1, 1, 2, 4] f) ++ (leBytes 2 samples ++ swfNumber 2 latency))
  | .block samples left data => leBytes 2 samples ++ (leBytes 2 left ++ data)
  | .frame id number data => leBytes 2 id ++ (leBytes 2 number ++ data)
  | .exports es => leBytes 2 es.length ++ es.flatMap swfNamed
  | .product id edition major minor build date => swfSigned 4 id ++ (swfSigned 4 edition ++ (leBytes 1 major ++ (leBytes 1 minor ++ (swfSigned 8 build ++ swfSigned 8 date))))
  | .limits a b => leBytes 2 a ++ leBytes 2 b
  | .symbols es => leBytes 2 es.length ++ es.flatMap swfNamed
  | .binary id reserved data => leBytes 2 id ++ (leBytes 4 reserved ++ data)

def swfEntriesGood (es : List (Nat × Bytes)) : Prop := es.length < 65536 ∧ ∀ e ∈ es, e.1 < 65536 ∧ ∀ x ∈ e.2, x ≠ 0

def swfOption (n : Nat) (flag : Nat) (v : Option Nat) : Prop := v.isSome = decide (flag ≠ 0) ∧ ∀ x ∈ v, x < 256 ^ n

/-- Codes whose content is read here. -/
def swfCodes : List Nat := [9, 14, 15, 18, 45, 19, 41, 56, 61, 65, 76, 87]

def SignedIn (n : Nat) (v : Int) : Prop := -(2 ^ (8 * n - 1) : Nat) ≤ v ∧ v < (2 ^ (8 * n - 1) : Nat)

/-- Content that a tag with a code may have. -/
def swfContentGood (code : Nat) : Swf.Content → Prop
  | .empty => True
  | .raw b => b ≠ [] ∧ code ∉ swfCodes
  | .color rgb => code = 9 ∧ NumsFit [1, 1, 1] rgb
  | .sound id flags samples seek _ => code = 14 ∧ id < 65536 ∧ Fit [1, 1, 2, 4] flags ∧ samples < 2 ^ 32 ∧ swfOption 2 (if flags.getD 3 0 = 2 then 1 else 0) seek
  | .start id flags a b c env => code = 15 ∧ id < 65536 ∧ Fit [1, 1, 1, 1, 1, 1, 2] flags ∧ swfOption 4 (flags.getD 0 0) a ∧ swfOption 4 (flags.getD 1 0) b ∧ swfOption 2 (flags.getD 2 0) c ∧
      env.isSome = decide (flags.getD 3 0 ≠ 0) ∧ ∀ es ∈ env, es.length < 256 ∧ ∀ e ∈ es, NumsFit [4, 2, 2] e
  | .stream p f samples latency => (code = 18 ∨ code = 45) ∧ Fit [1, 1, 2, 4] p ∧ Fit [1, 1, 2, 4] f ∧ samples < 65536 ∧ swfOption 2 (if f.getD 3 0 = 2 then 1 else 0) latency
  | .block samples left _ => code = 19 ∧ samples < 65536 ∧ left < 65536
  | .frame id number _ => code = 61 ∧ id < 65536 ∧ number < 65536
  | .exports es => code = 56 ∧ swfEntriesGood es
  | .product id edition major minor build date => code = 41 ∧ SignedIn 4 id ∧ SignedIn 4 edition ∧ major < 256 ∧ minor < 256 ∧ SignedIn 8 build ∧ SignedIn 8 date
  | .limits a b => code = 65 ∧ a < 65536 ∧ b < 65536
  | .symbols es => code = 76 ∧ swfEntriesGood es
  | .binary id reserved _ => code = 87 ∧ id < 65536 ∧ reserved < 2 ^ 32

/-- A tag: the code, whether the length is written in the long form, and the content. -/
structure SwfTag where
  code : Nat
  long : Bool
  content : Swf.Content

def swfTagGood (t : SwfTag) : Prop :=
  t.code < 1024 ∧ swfContentGood t.code t.content ∧ (swfContentBytes t.content).length < 2 ^ 32 ∧ (t.long = false → (swfContentBytes t.content).length < 63)

def swfTagBytes (t : SwfTag) : Bytes :=
  if t.long then leBytes 2 (63 + 64 * t.code) ++ (leBytes 4 (swfContentBytes t.content).length ++ swfContentBytes t.content)
  else leBytes 2 ((swfContentBytes t.content).length + 64 * t.code) ++ swfContentBytes t.content

/-! ### Parts -/

/-- **C156.** A rectangle is read; numbers below zero are told as they are stored, without their sign. -/
theorem C156_rect (r : SwfRect) (h : swfRectGood r) : Reads Swf.rect (swfRectValues r) (swfRectBytes r) := by
  obtain ⟨h1, h2, h3⟩ := h
  have hp : (8 - (5 + 4 * r.nbits) % 8) % 8 = swfPad r.nbits := by rw [swfPad]; omega
  have htw : ∀ v : Int, twosBits r.nbits v < 2 ^ r.nbits := by
    intro v
    have h0 : (0 : Int) < ((2 ^ r.nbits : Nat) : Int) := by exact_mod_cast Nat.two_pow_pos _
    have := Int.emod_lt_of_pos v h0
    have := Int.emod_nonneg v h0.ne'
    rw [twosBits]
    omega
  have hfit : Fit [5, r.nbits, r.nbits, r.nbits, r.nbits, swfPad r.nbits] (swfRectValues r) :=
    ⟨h2, htw _, htw _, htw _, htw _, Nat.two_pow_pos _, trivial⟩
  have hsum : [5, r.nbits, r.nbits, r.nbits, r.nbits, swfPad r.nbits].sum = 8 * ((5 + 4 * r.nbits + 7) / 8) := by
    simp only [List.sum_cons, List.sum_nil, swfPad]; omega
  have hb := reads_packed_be ((5 + 4 * r.nbits + 7) / 8) _ _ (by omega) hsum hfit
  rw [swfRectBytes]
  obtain ⟨b, bs, e⟩ : ∃ b bs, beBytes ((5 + 4 * r.nbits + 7) / 8) (joinBE [5, r.nbits, r.nbits, r.nbits, r.nbits, swfPad r.nbits] (swfRectValues r)) = b :: bs := by
    cases he : beBytes ((5 + 4 * r.nbits + 7) / 8) (joinBE [5, r.nbits, r.nbits, r.nbits, r.nbits, swfPad r.nbits] (swfRectValues r)) with
    | nil => have := congrArg List.length he; rw [beBytes_length] at this; simp at this; omega
    | cons b bs => exact ⟨b, bs, rfl⟩
  have hfirst : b.toNat / 8 = r.nbits := by
    -- the first five bits
    have hlt := joinBE_lt [5, r.nbits, r.nbits, r.nbits, r.nbits, swfPad r.nbits] (swfRectValues r)
    rw [hsum, pow_256] at hlt
    have hv := (beBytes_big _ _ hlt).2
    rw [e] at hv
    have hl := congrArg List.length e
    rw [beBytes_length, List.length_cons] at hl
    have hbs := ofBytesBE_lt bs
    have e1 : ofBytesBE (b :: bs) = b.toNat * 256 ^ bs.length + ofBytesBE bs := rfl
    rw [e1] at hv
    have e2 : joinBE [5, r.nbits, r.nbits, r.nbits, r.nbits, swfPad r.nbits] (swfRectValues r) =
        r.nbits % 2 ^ 5 * 2 ^ [r.nbits, r.nbits, r.nbits, r.nbits, swfPad r.nbits].sum +
          joinBE [r.nbits, r.nbits, r.nbits, r.nbits, swfPad r.nbits] [twosBits r.nbits r.xmin, twosBits r.nbits r.xmax, twosBits r.nbits r.ymin, twosBits r.nbits r.ymax, 0] := rfl
    have hlt2 := joinBE_lt [r.nbits, r.nbits, r.nbits, r.nbits, swfPad r.nbits] [twosBits r.nbits r.xmin, twosBits r.nbits r.xmax, twosBits r.nbits r.ymin, twosBits r.nbits r.ymax, 0]
    have hs2 : [r.nbits, r.nbits, r.nbits, r.nbits, swfPad r.nbits].sum = 8 * bs.length + 3 := by
      simp only [List.sum_cons, List.sum_nil] at hsum ⊢; omega
    rw [e2, hs2] at hv
    rw [hs2] at hlt2
    have hpow : 2 ^ (8 * bs.length + 3) = 8 * 256 ^ bs.length := by rw [Nat.pow_add, pow_256]; ring
    rw [hpow] at hv hlt2
    rw [Nat.mod_eq_of_lt (by omega)] at hv
    have hX : 0 < 256 ^ bs.length := Nat.pow_pos (by omega)
    generalize 256 ^ bs.length = X at *
    generalize joinBE _ _ = J at *
    generalize ofBytesBE bs = O at *
    have : b.toNat < 8 * r.nbits + 8 := by nlinarith
    have : 8 * r.nbits < b.toNat + 1 := by nlinarith
    omega
  rw [e]
  refine Reads.peek .big (by decide) b ?_
  rw [hfirst, if_neg (by omega), hp, ← e]
  exact hb

theorem reads_swf_named (e : Nat × Bytes) (h : e.1 < 65536 ∧ ∀ x ∈ e.2, x ≠ 0) : Reads Swf.named e (swfNamed e) :=
  Reads.bind (reads_int_le 2 _ (by omega) h.1) (Reads.map (f := fun name => (e.1, name)) (reads_cstring .little (by decide) .eightBit (.inl rfl) _ h.2))

theorem reads_swf_entries (es : List (Nat × Bytes)) (h : swfEntriesGood es) : Reads Swf.entries es (leBytes 2 es.length ++ es.flatMap swfNamed) :=
  Reads.bind (reads_int_le 2 _ (by omega) h.1) (reads_times Swf.named swfNamed es fun e he => reads_swf_named e (h.2 e he))

theorem reads_swf_number (n : Nat) (hn : 0 < n) (flag : Nat) (v : Option Nat) (h : swfOption n flag v) : Reads (Lnk.optionally flag (Rd.int n .little)) v (swfNumber n v) := by
  refine reads_optionally flag _ v _ h.1 (fun e => by rw [e]; rfl) fun x hx => ?_
  have hv := h.2 x hx
  obtain rfl : v = some x := hx
  exact reads_int_le n x hn hv

theorem reads_swf_envelope (flag : Nat) (env : Option (List (List Nat))) (h : env.isSome = decide (flag ≠ 0)) (hg : ∀ es ∈ env, es.length < 256 ∧ ∀ e ∈ es, NumsFit [4, 2, 2] e) :
    Reads (Lnk.optionally flag Swf.envelope) env (swfEnvelope env) := by
  refine reads_optionally flag _ env _ h (fun e => by rw [e]; rfl) fun es hes => ?_
  have hv := hg es hes
  obtain rfl : env = some es := hes
  exact Reads.bind (reads_int_le 1 _ (by omega) hv.1) (reads_times _ (numsBytes [4, 2, 2]) es fun e he => reads_numbers _ _ (hv.2 e he))

/-- **C156.** The content of every tag is read. -/
theorem C156_content (code : Nat) (c : Swf.Content) (h : swfContentGood code c) : ReadsAll (Swf.content code (swfContentBytes c).length) c (swfContentBytes c) := by
  cases c with
  | empty => exact Reads.all (reads_pure _)
  | raw b =>
    obtain ⟨h1, h2⟩ := h
    have hl := List.length_pos_of_ne_nil h1
    simp only [swfCodes, List.mem_cons, List.not_mem_nil, or_false, not_or] at h2
    rw [Swf.content, if_neg (by show b.length ≠ 0; omega), if_neg (by omega), if_neg (by omega), if_neg (by omega), if_neg (by omega), if_neg (by omega), if_neg (by omega), if_neg (by omega),
      if_neg (by omega), if_neg (by omega), if_neg (by omega), if_neg (by omega)]
    exact Reads.all (Reads.map (f := Swf.Content.raw) (reads_raw b h1))
  | color rgb =>
    obtain ⟨rfl, h⟩ := h
    have hl : (swfContentBytes (.color rgb)).length = 3 := nums_length [1, 1, 1] rgb h
    rw [hl]
    exact Reads.all (Reads.map (f := Swf.Content.color) (reads_numbers _ _ h))
  | sound id flags samples seek data =>
    obtain ⟨rfl, h1, h2, h3, h4⟩ := h
    have hl : (swfContentBytes (.sound id flags samples seek data)).length ≠ 0 := by
      simp only [swfContentBytes, List.length_append, leBytes_length]; omega
    rw [Swf.content, if_neg hl, if_neg (by omega), if_pos rfl]
    refine Reads.bind_all (reads_int_le 2 _ (by omega) h1) ?_
    refine Reads.bind_all (reads_packed_le 1 _ _ (by omega) (by decide) h2) ?_
    refine Reads.bind_all (reads_int_le 4 _ (by omega) h3) ?_
    refine Reads.bind_all (reads_swf_number 2 (by omega) _ _ h4) ?_
    exact ReadsAll.map (reads_rest data) _
  | start id flags a b c env =>
    obtain ⟨rfl, h1, h2, h3, h4, h5, h6, h7⟩ := h
    have hl : (swfContentBytes (.start id flags a b c env)).length ≠ 0 := by
      simp only [swfContentBytes, List.length_append, leBytes_length]; omega
    rw [Swf.content, if_neg hl, if_neg (by omega), if_neg (by omega), if_pos rfl]
    apply Reads.all
    refine Reads.bind (reads_int_le 2 _ (by omega) h1) ?_
    refine Reads.bind (reads_packed_le 1 _ _ (by omega) (by decide) h2) ?_
    refine Reads.bind (reads_swf_number 4 (by omega) _ _ h3) ?_
    refine Reads.bind (reads_swf_number 4 (by omega) _ _ h4) ?_
    refine Reads.bind (reads_swf_number 2 (by omega) _ _ h5) ?_
    exact Reads.map (f := fun e => Swf.Content.start id flags a b c e) (reads_swf_envelope _ _ h6 h7)
  | stream p f samples latency =>
    obtain ⟨h0, h1, h2, h3, h4⟩ := h
    have hl : (swfContentBytes (.stream p f samples latency)).length ≠ 0 := by
      simp only [swfContentBytes, List.length_append, leBytes_length]; omega
    rw [Swf.content, if_neg hl, if_neg (by omega), if_neg (by omega), if_neg (by omega), if_pos h0]
    apply Reads.all
    refine Reads.bind (reads_packed_le 1 _ _ (by omega) (by decide) h1) ?_
    refine Reads.bind (reads_packed_le 1 _ _ (by omega) (by decide) h2) ?_
    refine Reads.bind (reads_int_le 2 _ (by omega) h3) ?_
    exact Reads.map (f := fun l => Swf.Content.stream p f samples l) (reads_swf_number 2 (by omega) _ _ h4)
  | block samples left data =>
    obtain ⟨rfl, h1, h2⟩ := h
    have hl : (swfContentBytes (.block samples left data)).length ≠ 0 := by
      simp only [swfContentBytes, List.length_append, leBytes_length]; omega
    rw [Swf.content, if_neg hl, if_neg (by omega), if_neg (by omega), if_neg (by omega), if_neg (by omega), if_pos rfl]
    refine Reads.bind_all (reads_int_le 2 _ (by omega) h1) ?_
    refine Reads.bind_all (reads_int_le 2 _ (by omega) h2) ?_
    exact ReadsAll.map (reads_rest data) _
  | frame id number data =>
    obtain ⟨rfl, h1, h2⟩ := h
    have hl : (swfContentBytes (.frame id number data)).length = 4 + data.length := by
      simp only [swfContentBytes, List.length_append, leBytes_length]; omega
    rw [Swf.content, if_neg (by omega), if_neg (by omega), if_neg (by omega), if_neg (by omega), if_neg (by omega), if_neg (by omega), if_neg (by omega), if_neg (by omega), if_pos rfl, hl]
    apply Reads.all
    refine Reads.bind (reads_int_le 2 _ (by omega) h1) ?_
    refine Reads.bind (reads_int_le 2 _ (by omega) h2) ?_
    exact Reads.map (f := fun d => Swf.Content.frame id number d) (reads_raw_or data _ (by omega))
  | exports es =>
    obtain ⟨rfl, h⟩ := h
    have hl : (swfContentBytes (.exports es)).length ≠ 0 := by
      simp only [swfContentBytes, List.length_append, leBytes_length]; omega
    rw [Swf.content, if_neg hl, if_neg (by omega), if_neg (by omega), if_neg (by omega), if_neg (by omega), if_neg (by omega), if_neg (by omega), if_pos rfl]
    exact Reads.all (Reads.map (f := Swf.Content.exports) (reads_swf_entries es h))
  | product id edition major minor build date =>
    obtain ⟨rfl, h1, h2, h3, h4, h5, h6⟩ := h
    have hl : (swfContentBytes (.product id edition major minor build date)).length ≠ 0 := by
      simp only [swfContentBytes, swfSigned, List.length_append, leBytes_length]; omega
    rw [Swf.content, if_neg hl, if_neg (by omega), if_neg (by omega), if_neg (by omega), if_neg (by omega), if_neg (by omega), if_pos rfl]
    apply Reads.all
    refine Reads.bind (reads_signed_le 4 _ (by omega) h1.1 h1.2) ?_
    refine Reads.bind (reads_signed_le 4 _ (by omega) h2.1 h2.2) ?_
    refine Reads.bind (reads_int_le 1 _ (by omega) h3) ?_
    refine Reads.bind (reads_int_le 1 _ (by omega) h4) ?_
    refine Reads.bind (reads_signed_le 8 _ (by omega) h5.1 h5.2) ?_
    exact Reads.map (f := fun d => Swf.Content.product id edition major minor build d) (reads_signed_le 8 _ (by omega) h6.1 h6.2)
  | limits a b =>
    obtain ⟨rfl, h1, h2⟩ := h
    have hl : (swfContentBytes (.limits a b)).length ≠ 0 := by
      simp only [swfContentBytes, List.length_append, leBytes_length]; omega
    rw [Swf.content, if_neg hl, if_neg (by omega), if_neg (by omega), if_neg (by omega), if_neg (by omega), if_neg (by omega), if_neg (by omega), if_neg (by omega), if_neg (by omega), if_pos rfl]
    exact Reads.all (Reads.bind (reads_int_le 2 _ (by omega) h1) (Reads.map (f := fun d => Swf.Content.limits a d) (reads_int_le 2 _ (by omega) h2)))
  | symbols es =>
    obtain ⟨rfl, h⟩ := h
    have hl : (swfContentBytes (.symbols es)).length ≠ 0 := by
      simp only [swfContentBytes, List.length_append, leBytes_length]; omega
    rw [Swf.content, if_neg hl, if_neg (by omega), if_neg (by omega), if_neg (by omega), if_neg (by omega), if_neg (by omega), if_neg (by omega), if_neg (by omega), if_neg (by omega), if_neg (by omega), if_pos rfl]
    exact Reads.all (Reads.map (f := Swf.Content.symbols) (reads_swf_entries es h))
  | binary id reserved data =>
    obtain ⟨rfl, h1, h2⟩ := h
    have hl : (swfContentBytes (.binary id reserved data)).length = 6 + data.length := by
      simp only [swfContentBytes, List.length_append, leBytes_length]; omega
    rw [Swf.content, if_neg (by omega), if_neg (by omega), if_neg (by omega), if_neg (by omega), if_neg (by omega), if_neg (by omega), if_neg (by omega), if_neg (by omega), if_neg (by omega), if_neg (by omega), if_neg (by omega), if_pos rfl, hl]
    apply Reads.all
    refine Reads.bind (reads_int_le 2 _ (by omega) h1) ?_
    refine Reads.bind (reads_int_le 4 _ (by omega) h2) ?_
    exact Reads.map (f := fun d => Swf.Content.binary id reserved d) (reads_raw_or data _ (by omega))

theorem reads_swf_head (n code : Nat) (hn : n < 64) (hc : code < 1024) : Reads (Rd.bits .little [6, 10]) [n, code] (leBytes 2 (n + 64 * code)) := by
  have h := reads_packed_le 2 [6, 10] [n, code] (by omega) (by decide) ⟨hn, hc, trivial⟩
  have e : joinLE [6, 10] [n, code] = n + 64 * code := by
    simp only [joinLE]
    omega
  rwa [e] at h

theorem le2_cons (v : Nat) : leBytes 2 v = UInt8.ofNat (v % 256) :: leBytes 1 (v / 256) := rfl

/-- **C156.** A tag is read with its code and content, in both forms of the length. -/
theorem C156_tag (t : SwfTag) (h : swfTagGood t) : Reads Swf.tag (t.code, t.content) (swfTagBytes t) := by
  obtain ⟨h1, h2, h3, h4⟩ := h
  have hc := C156_content t.code t.content h2
  have peeked : ∀ (n : Nat) (r : Nat → Rd (Nat × Swf.Content)) (bs : Bytes), n < 64 → (∀ x, x % 64 = n → Reads (r x) (t.code, t.content) (leBytes 2 (n + 64 * t.code) ++ bs)) →
      Reads (Rd.peek .little >>= r) (t.code, t.content) (leBytes 2 (n + 64 * t.code) ++ bs) := by
    intro n r bs hn hr
    rw [le2_cons, List.cons_append] at hr ⊢
    refine Reads.peek .little (by decide) _ (hr _ ?_)
    rw [UInt8.toNat_ofNat']
    omega
  rw [swfTagBytes]
  cases hl : t.long with
  | true =>
    rw [if_pos rfl]
    refine peeked 63 _ _ (by omega) fun x hx => ?_
    simp only [if_pos hx]
    refine Reads.bind (reads_swf_head 63 t.code (by omega) h1) ?_
    refine Reads.bind (reads_int_le 4 _ (by omega) h3) ?_
    exact Reads.map (f := fun c => (t.code, c)) (hc.within _ rfl)
  | false =>
    have h4 := h4 hl
    rw [if_neg Bool.false_ne_true]
    refine peeked _ _ _ (by omega) fun x hx => ?_
    simp only [if_neg (show ¬ x % 64 = 63 by omega)]
    refine Reads.bind (reads_swf_head _ t.code (by omega) h1) ?_
    exact Reads.map (f := fun c => (t.code, c)) (hc.within _ rfl)

theorem swf_tag_ne (t : SwfTag) : swfTagBytes t ≠ [] := by
  intro e
  have := congrArg List.length e
  rw [swfTagBytes] at this
  split at this <;> simp [leBytes_length] at this

/-! ### Files -/

/-- A movie as it is written. -/
structure SwfMovie where
  version : Nat
  filesize : Nat
  rect : SwfRect
  /-- Frames per second, in 256ths. -/
  rate : Nat
  count : Nat
  tags : List SwfTag

def swfMovieGood (m : SwfMovie) : Prop := m.version < 256 ∧ m.filesize < 2 ^ 32 ∧ swfRectGood m.rect ∧ m.rate < 65536 ∧ m.count < 65536 ∧ ∀ t ∈ m.tags, swfTagGood t

def swfBytes (m : SwfMovie) : Bytes :=
  [0x46, 0x57, 0x53] ++ (leBytes 1 m.version ++ (leBytes 4 m.filesize ++ (swfRectBytes m.rect ++ (leBytes 2 m.rate ++ (leBytes 2 m.count ++ m.tags.flatMap swfTagBytes)))))

def swfMovie (m : SwfMovie) : Swf.Movie := ⟨m.version, m.filesize, swfRectValues m.rect, [m.rate % 256, m.rate / 256], m.count, m.tags.map fun t => (t.code, t.content)⟩

/-- **C156.** A movie is read with all its tags in their order. -/
theorem C156_movie (m : SwfMovie) (h : swfMovieGood m) (n : Nat) (hn : m.tags.length < n) : ReadsAll (Swf.swf n) (.plain (swfMovie m)) (swfBytes m) := by
  obtain ⟨h1, h2, h3, h4, h5, h6⟩ := h
  refine Reads.bind_all (reads_fixed .little .eightBit (by decide) 3 [0x46, 0x57, 0x53] rfl (by omega)) ?_
  refine Reads.bind_all (reads_int_le 1 _ (by omega) h1) ?_
  refine Reads.bind_all (reads_int_le 4 _ (by omega) h2) ?_
  rw [if_neg (by decide)]
  refine Reads.bind_all (C156_rect _ h3) ?_
  have hr : Reads (Asf.numbers [1, 1]) [m.rate % 256, m.rate / 256] (leBytes 2 m.rate) := by
    have := reads_numbers [1, 1] [m.rate % 256, m.rate / 256] (by simp [NumsFit]; omega)
    have e : numsBytes [1, 1] [m.rate % 256, m.rate / 256] = leBytes 2 m.rate := by
      simp only [numsBytes, List.append_nil, leBytes, List.cons_append, List.nil_append, Nat.mod_mod]
    rwa [e] at this
  refine Reads.bind_all hr ?_
  refine Reads.bind_all (reads_int_le 2 _ (by omega) h5) ?_
  exact ReadsAll.map (reads_while_map Swf.tag (fun t => (t.code, t.content)) swfTagBytes m.tags n hn fun t ht => ⟨C156_tag t (h6 t ht), swf_tag_ne t⟩) _

/-- **C156.** A compressed movie is found with its head and the compressed bytes. -/
theorem C156_packed (version filesize : Nat) (b : Bytes) (h1 : version < 256) (h2 : filesize < 2 ^ 32) (hb : b ≠ []) (n : Nat) :
    ReadsAll (Swf.swf n) (.packed version filesize b) ([0x43, 0x57, 0x53] ++ (leBytes 1 version ++ (leBytes 4 filesize ++ b))) := by
  refine Reads.bind_all (reads_fixed .little .eightBit (by decide) 3 [0x43, 0x57, 0x53] rfl (by omega)) ?_
  refine Reads.bind_all (reads_int_le 1 _ (by omega) h1) ?_
  refine Reads.bind_all (reads_int_le 4 _ (by omega) h2) ?_
  rw [if_pos rfl]
  exact ReadsAll.map (reads_asf_rest b hb) _

/-- **C156.** Movies of versions 1 to 10 of at most 50 MB are accepted, and no others. -/
theorem C156_valid (m : SwfMovie) : Swf.valid [0x46, 0x57, 0x53] (.plain (swfMovie m)) = true ↔ 1 ≤ m.version ∧ m.version ≤ 10 ∧ m.filesize ≤ 52428800 := by
  simp [Swf.valid, swfMovie, swfRectValues, and_assoc]
  exact ⟨fun ⟨a, b, c⟩ => ⟨of_decide_eq_true a, of_decide_eq_true b, of_decide_eq_true c⟩, fun ⟨a, b, c⟩ => ⟨decide_eq_true a, decide_eq_true b, decide_eq_true c⟩⟩

/-- **C156.** Numbers of rectangles that are not below zero are told as they are. -/
theorem C156_positive (n : Nat) (v : Int) (h0 : 0 ≤ v) (hv : v < (2 ^ n : Nat)) : (twosBits n v : Int) = v := by
  rw [twosBits, Int.emod_eq_of_lt h0 hv]
  omega

/-- **C156**, violated: a number below zero is told as a large one. -/
theorem C156_negative (n : Nat) (v : Int) (h0 : v < 0) (hv : -(2 ^ n : Nat) ≤ v) : (twosBits n v : Int) = v + (2 ^ n : Nat) := by
  have h : v % (2 ^ n : Nat) = v + (2 ^ n : Nat) := by
    rw [← Int.add_emod_right]
    exact Int.emod_eq_of_lt (by omega) (by omega)
  rw [twosBits, h]
  omega

/-- **C156**, violated: the size that metadata tell of a movie of `w` times `h` pixels (of 20 units) is
20 times too large, and nothing is told above 1000 pixels. -/
theorem C156_twips (m : SwfMovie) (hm : swfMovieGood m) (w h : Nat) (hw : m.rect.xmax = 20 * w) (hh : m.rect.ymax = 20 * h) (h0 : 0 < w ∧ 0 < h) :
    ∃ t, Swf.extract (.plain (swfMovie m)) = .ok t ∧ t.width = (if w ≤ 1000 then some (20 * w) else none) ∧ t.height = (if h ≤ 1000 then some (20 * h) else none) ∧ t.count = m.count := by
  obtain ⟨-, -, ⟨hn, -, hr⟩, -⟩ := hm
  have hx := hr m.rect.xmax (by simp)
  have hy := hr m.rect.ymax (by simp)
  have hp : 2 ^ m.rect.nbits = 2 * 2 ^ (m.rect.nbits - 1) := by rw [← Nat.pow_succ']; congr 1; omega
  have ex := C156_positive m.rect.nbits m.rect.xmax (by omega) (by rw [hp]; omega)
  have ey := C156_positive m.rect.nbits m.rect.ymax (by omega) (by rw [hp]; omega)
  have ex' : twosBits m.rect.nbits m.rect.xmax = 20 * w := by omega
  have ey' : twosBits m.rect.nbits m.rect.ymax = 20 * h := by omega
  refine ⟨_, rfl, ?_, ?_, rfl⟩
  · show (if 1 ≤ twosBits m.rect.nbits m.rect.xmax ∧ twosBits m.rect.nbits m.rect.xmax ≤ 20000 then some (twosBits m.rect.nbits m.rect.xmax) else none) = _
    rw [ex']
    by_cases hc : w ≤ 1000
    · rw [if_pos hc, if_pos (by omega)]
    · rw [if_neg hc, if_neg (by omega)]
  · show (if 1 ≤ twosBits m.rect.nbits m.rect.ymax ∧ twosBits m.rect.nbits m.rect.ymax ≤ 20000 then some (twosBits m.rect.nbits m.rect.ymax) else none) = _
    rw [ey']
    by_cases hc : h ≤ 1000
    · rw [if_pos hc, if_pos (by omega)]
    · rw [if_neg hc, if_neg (by omega)]

/-- **C156.** The frame rate that is told is that of the movie, if it is from 1 to 150 frames per second. -/
theorem C156_frame_rate (m : SwfMovie) (h : 256 ≤ m.rate ∧ m.rate ≤ 38400) : ∃ t, Swf.extract (.plain (swfMovie m)) = .ok t ∧ t.rate = some m.rate := by
  refine ⟨_, rfl, ?_⟩
  show (if 256 ≤ m.rate % 256 + 256 * (m.rate / 256) ∧ m.rate % 256 + 256 * (m.rate / 256) ≤ 150 * 256 then some (m.rate % 256 + 256 * (m.rate / 256)) else none) = _
  rw [Nat.mod_add_div, if_pos (by omega)]

/-- **C156**, violated: nothing is told of a compressed movie. -/
theorem C156_compressed (version filesize : Nat) (b : Bytes) : Swf.extract (.packed version filesize b) = .error .missingField := rfl

/-! ### Examples -/

def sampleSwf : SwfMovie := ⟨6, 100, ⟨15, 0, 11000, 0, 8000⟩, 3072, 2, [⟨9, false, .color [255, 0, 128]⟩, ⟨56, true, .exports [(1, [0x61, 0x62])]⟩, ⟨1, false, .empty⟩, ⟨0, false, .empty⟩]⟩

example : swfMovieGood sampleSwf := by
  refine ⟨by decide, by decide, ⟨by decide, by decide, by decide⟩, by decide, by decide, ?_⟩
  intro t ht
  simp only [sampleSwf, List.mem_cons, List.not_mem_nil, or_false] at ht
  rcases ht with rfl | rfl | rfl | rfl
  · exact ⟨by decide, ⟨rfl, by simp [NumsFit]⟩, by decide, by decide⟩
  · exact ⟨by decide, ⟨rfl, by simp [swfEntriesGood]⟩, by decide, by decide⟩
  · exact ⟨by decide, trivial, by decide, by decide⟩
  · exact ⟨by decide, trivial, by decide, by decide⟩

end Hachoir.Props

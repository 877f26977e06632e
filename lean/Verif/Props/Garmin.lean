import Verif.Formats.Garmin
import Verif.Props.Reader
import Verif.Props.Packed
import Verif.Props.Elf
import Verif.Props.Bplist

/-!
# C165: Garmin files

The specification is the FIT protocol: a header of 14 bytes with the size of the messages, the
messages, and a checksum, low byte first.  A definition message tells the fields of the data
messages of its slot that follow.
-/

namespace Hachoir.Props
open Hachoir Hachoir.Stream Hachoir.Field Hachoir.Formats Hachoir.Formats.Garmin

/-! ## Specification -/

/-- The base types of FIT. -/
def baseTypes : List (Nat × Kind) := [(0x00, .unsigned 1), (0x01, .signed 1), (0x02, .unsigned 1), (0x83, .signed 2), (0x84, .unsigned 2), (0x85, .signed 4), (0x86, .unsigned 4),
  (0x07, .text), (0x88, .float 4), (0x89, .float 8), (0x0A, .unsigned 1), (0x8B, .unsigned 2), (0x8C, .unsigned 4), (0x0D, .bytes), (0x8E, .signed 8), (0x8F, .unsigned 8), (0x90, .unsigned 8)]

def fitEndian (big : Bool) : Endian := if big then .big else .little

def fitWidth : Kind → Nat
  | .unsigned w => w
  | .signed w => w
  | .float w => w
  | _ => 1

/-- The bytes of a value. -/
def fitValue (e : Endian) (k : Kind) : Garmin.Value → Bytes
  | .unsigned v => numBytes e (fitWidth k) v
  | .signed v => numBytes e (fitWidth k) (v % (256 ^ fitWidth k : Nat)).toNat
  | .float v => numBytes e (fitWidth k) v
  | .text b => b
  | .bytes b => b

/-- A value of this kind. -/
def FitValueGood : Kind → Garmin.Value → Prop
  | .unsigned w, .unsigned v => v < 256 ^ w
  | .signed w, .signed v => -(2 ^ (8 * w - 1) : Nat) ≤ v ∧ v < (2 ^ (8 * w - 1) : Nat)
  | .float w, .float v => v < 256 ^ w
  | .text, .text _ => True
  | .bytes, .bytes _ => True
  | _, _ => False

def fitField (e : Endian) (f : FieldDef) (vs : List Garmin.Value) : Bytes :=
  match baseTypes.lookup f.type with
  | none => []
  | some k => vs.flatMap (fitValue e k)

/-- The values of a field fit its definition. -/
def FitFieldGood (e : Endian) (f : FieldDef) (vs : List Garmin.Value) : Prop :=
  ∃ k, baseTypes.lookup f.type = some k ∧ (∀ v ∈ vs, FitValueGood k v) ∧ f.size = (vs.flatMap (fitValue e k)).length ∧ 0 < f.size ∧ f.size < 256 ∧ ((k = .text ∨ k = .bytes) → vs.length = 1)

def fitFields (e : Endian) : List FieldDef → List (List Garmin.Value) → Bytes
  | f :: fs, v :: vs => fitField e f v ++ fitFields e fs vs
  | _, _ => []

def FitFieldsGood (e : Endian) : List FieldDef → List (List Garmin.Value) → Prop
  | [], [] => True
  | f :: fs, v :: vs => FitFieldGood e f v ∧ FitFieldsGood e fs vs
  | _, _ => False

/-- The definitions after a message. -/
def fitAfter (defs : Nat → Option Def) : Msg → Nat → Option Def
  | .definition d => fun k => if k = d.slot then some d else defs k
  | _ => defs

def fitFieldDef (f : FieldDef) : Bytes := [UInt8.ofNat f.number, UInt8.ofNat f.size, UInt8.ofNat f.type]

/-- The bytes of a message. -/
def fitMsg (defs : Nat → Option Def) : Msg → Bytes
  | .definition d => UInt8.ofNat (64 + d.slot) :: ([0, if d.big then 1 else 0] ++ (numBytes (fitEndian d.big) 2 d.number ++ (UInt8.ofNat d.fields.length :: d.fields.flatMap fitFieldDef)))
  | .data k vs => UInt8.ofNat k :: (match defs k with | none => [] | some d => fitFields (fitEndian d.big) d.fields vs)
  | .timestamp _ _ => []

def FitMsgGood (defs : Nat → Option Def) : Msg → Prop
  | .definition d => d.slot < 16 ∧ d.number < 65536 ∧ d.fields.length < 256 ∧ ∀ f ∈ d.fields, f.number < 256 ∧ f.size < 256 ∧ f.type < 256
  | .data k vs => k < 16 ∧ ∃ d, defs k = some d ∧ FitFieldsGood (fitEndian d.big) d.fields vs
  | .timestamp _ _ => False

def fitMsgs : (Nat → Option Def) → List Msg → Bytes
  | _, [] => []
  | defs, m :: ms => fitMsg defs m ++ fitMsgs (fitAfter defs m) ms

def FitMsgsGood : (Nat → Option Def) → List Msg → Prop
  | _, [] => True
  | defs, m :: ms => FitMsgGood defs m ∧ FitMsgsGood (fitAfter defs m) ms

/-- The messages that begin in the first `n` bytes of the file, the first one at `a`. -/
def kept (n : Nat) : Nat → (Nat → Option Def) → List Msg → List Msg
  | _, _, [] => []
  | a, defs, m :: ms => if a < n then m :: kept n (a + (fitMsg defs m).length) (fitAfter defs m) ms else []

/-! ## Values -/

/-- **C165.** The types are those of FIT. -/
theorem C165_types (t : Nat) : Garmin.kindOf t = baseTypes.lookup t := by
  by_cases h : t < 145
  · have : ∀ t < 145, Garmin.kindOf t = baseTypes.lookup t := by decide +kernel
    exact this t h
  · have hb : ∀ k : Nat, k < 145 → (t == k) = false := fun k hk => by simp; omega
    simp only [Garmin.kindOf, baseTypes, List.lookup]
    repeat rw [if_neg (by omega)]
    repeat rw [hb _ (by decide)]

theorem reads_signed (e : Endian) (he : e ≠ .middle) (n : Nat) (v : Int) (hn : 0 < n) (h1 : -(2 ^ (8 * n - 1) : Nat) ≤ v) (h2 : v < (2 ^ (8 * n - 1) : Nat)) :
    Reads (Rd.signed n e) v (numBytes e n (v % (256 ^ n : Nat)).toNat) := by
  cases e with
  | big => exact reads_signed_be n v hn h1 h2
  | little => exact reads_signed_le n v hn h1 h2
  | middle => exact absurd rfl he

theorem endian_ne (b : Bool) : fitEndian b ≠ .middle := by cases b <;> decide

theorem times_length (vs : List Garmin.Value) (e : Endian) (k : Kind) (w : Nat) (hw : 0 < w) (h : ∀ v ∈ vs, (fitValue e k v).length = w) : (vs.flatMap (fitValue e k)).length / w = vs.length := by
  have : (vs.flatMap (fitValue e k)).length = w * vs.length := by
    induction vs with
    | nil => rfl
    | cons v vs ih =>
      rw [List.flatMap_cons, List.length_append, ih fun v hv => h v (List.mem_cons_of_mem _ hv), h v List.mem_cons_self, List.length_cons, Nat.mul_succ, Nat.add_comm]
  rw [this, Nat.mul_div_cancel_left _ hw]

theorem widths (t : Nat) (k : Kind) (h : baseTypes.lookup t = some k) : 0 < fitWidth k := by
  rw [← C165_types] at h
  by_cases ht : t < 145
  · have : ∀ t < 145, ∀ k, Garmin.kindOf t = some k → 0 < fitWidth k := by
      intro t ht
      have : ∀ t < 145, (match Garmin.kindOf t with | some k => decide (0 < fitWidth k) | none => true) = true := by decide +kernel
      intro k hk
      have := this t ht
      rw [hk] at this
      simpa using this
    exact this t ht k h
  · exfalso
    simp only [Garmin.kindOf] at h
    repeat rw [if_neg (by omega)] at h
    exact absurd h (by simp)

/-- **C165** (disagreement): a value of a type that is not in the table is an error, although its size is known. -/
theorem C165_unknown (e : Endian) (size t : Nat) (h : baseTypes.lookup t = none) (s : InputStream) (stop k : Nat) : valuesOf e size (Garmin.kindOf t) s stop k = .error .key := by
  rw [C165_types, h]
  rfl

/-- **C165.** The values of a field are read, whatever its type, byte order and number of values. -/
theorem C165_field (big : Bool) (f : FieldDef) (vs : List Garmin.Value) (h : FitFieldGood (fitEndian big) f vs) :
    Reads (valuesOf (fitEndian big) f.size (Garmin.kindOf f.type)) vs (fitField (fitEndian big) f vs) := by
  obtain ⟨k, hk, hv, hs, h0, h1, h2⟩ := h
  have hw := widths _ _ hk
  rw [C165_types, fitField, hk]
  cases k with
  | unsigned w =>
    show Reads (Rd.times _ _) _ _
    have hl : ∀ v ∈ vs, (fitValue (fitEndian big) (.unsigned w) v).length = w := fun v hm => by
      have := hv v hm
      cases v <;> simp only [FitValueGood] at this
      exact numBytes_length ..
    rw [hs, times_length vs _ _ w hw hl]
    refine reads_times _ (fitValue (fitEndian big) (.unsigned w)) vs fun v hm => ?_
    have := hv v hm
    cases v <;> simp only [FitValueGood] at this
    exact Reads.map (f := Garmin.Value.unsigned) (reads_number _ (endian_ne big) w _ hw this)
  | signed w =>
    show Reads (Rd.times _ _) _ _
    have hl : ∀ v ∈ vs, (fitValue (fitEndian big) (.signed w) v).length = w := fun v hm => by
      have := hv v hm
      cases v <;> simp only [FitValueGood] at this
      exact numBytes_length ..
    rw [hs, times_length vs _ _ w hw hl]
    refine reads_times _ (fitValue (fitEndian big) (.signed w)) vs fun v hm => ?_
    have := hv v hm
    cases v <;> simp only [FitValueGood] at this
    exact Reads.map (f := Garmin.Value.signed) (reads_signed _ (endian_ne big) w _ hw this.1 this.2)
  | float w =>
    show Reads (Rd.times _ _) _ _
    have hl : ∀ v ∈ vs, (fitValue (fitEndian big) (.float w) v).length = w := fun v hm => by
      have := hv v hm
      cases v <;> simp only [FitValueGood] at this
      exact numBytes_length ..
    rw [hs, times_length vs _ _ w hw hl]
    refine reads_times _ (fitValue (fitEndian big) (.float w)) vs fun v hm => ?_
    have := hv v hm
    cases v <;> simp only [FitValueGood] at this
    exact Reads.map (f := Garmin.Value.float) (reads_number _ (endian_ne big) w _ hw this)
  | text =>
    obtain ⟨v, rfl⟩ := List.length_eq_one_iff.1 (h2 (.inl rfl))
    have := hv v List.mem_cons_self
    cases v <;> simp only [FitValueGood] at this
    rename_i b
    have e : [Garmin.Value.text b].flatMap (fitValue (fitEndian big) .text) = b := by simp [fitValue]
    rw [e] at hs
    simp only [e]
    show Reads (Garmin.textItem f.size) _ _
    rw [hs]
    exact Reads.map (f := fun b => [Garmin.Value.text b]) (reads_fixed .big .eightBit (by decide) b.length b rfl (by omega))
  | bytes =>
    obtain ⟨v, rfl⟩ := List.length_eq_one_iff.1 (h2 (.inr rfl))
    have := hv v List.mem_cons_self
    cases v <;> simp only [FitValueGood] at this
    rename_i b
    have e : [Garmin.Value.bytes b].flatMap (fitValue (fitEndian big) .bytes) = b := by simp [fitValue]
    rw [e] at hs
    simp only [e]
    show Reads (Garmin.bytesItem f.size) _ _
    rw [hs]
    exact Reads.map (f := fun b => [Garmin.Value.bytes b]) (reads_raw_n b.length b rfl (by omega))

theorem reads_fit_fields (big : Bool) : ∀ (fs : List FieldDef) (vs : List (List Garmin.Value)), FitFieldsGood (fitEndian big) fs vs →
    Reads (Rd.each (fun f : FieldDef => valuesOf (fitEndian big) f.size (Garmin.kindOf f.type)) fs) vs (fitFields (fitEndian big) fs vs)
  | [], [], _ => reads_rpure _
  | [], _ :: _, h => h.elim
  | _ :: _, [], h => h.elim
  | f :: fs, v :: vs, h => Reads.rbind (C165_field big f v h.1) (Reads.rmap (f := fun r => v :: r) (reads_fit_fields big fs vs h.2))

/-! ## Messages -/

theorem reads_record (t k : Nat) (ht : t < 2) (hk : k < 16) : Reads recordHeader [0, t, 0, 0, k] [UInt8.ofNat (64 * t + k)] := by
  refine Reads.of_eq (reads_packed_be 1 [1, 1, 1, 1, 4] [0, t, 0, 0, k] (by decide) rfl (by simp [Fit]; omega)) rfl ?_
  have : joinBE [1, 1, 1, 1, 4] [0, t, 0, 0, k] = 64 * t + k := by simp [joinBE]; omega
  rw [this]
  show [UInt8.ofNat ((64 * t + k) % 256)] = [UInt8.ofNat (64 * t + k)]
  rw [Nat.mod_eq_of_lt (by omega)]

theorem Reads.kind {α : Type} {f : Nat → Rd α} {v : α} (b : UInt8) {bs : Bytes} (h : Reads (f (b.toNat / 64)) v (b :: bs)) :
    Reads (Rd.bind Garmin.kind f) v (b :: bs) := by
  intro data s hs k stop hp hst
  have hb := b.toNat_lt
  rw [Rd.bind, Garmin.kind, readBits_mid data s hs k 0 2 [b] (prefix_left (xs := [b]) (ys := bs) hp) (by simp) (by simp) _ (by rw [Nat.add_zero])]
  have e : Spec.ofBytesBE [b] / 2 ^ (8 * [b].length - 0 - 2) % 2 ^ 2 = b.toNat / 64 := by
    simp [Spec.ofBytesBE]
    omega
  rw [e]
  exact h data s hs k stop hp hst

theorem reads_fit_def (f : FieldDef) (h : f.number < 256 ∧ f.size < 256 ∧ f.type < 256) : Reads fieldDef f (fitFieldDef f) := by
  have b : ∀ n, n < 256 → Reads (Rd.int 1 .big) n [UInt8.ofNat n] := fun n hn => by
    refine Reads.of_eq (reads_byte (UInt8.ofNat n) .big (by decide)) ?_ rfl
    simp only [UInt8.toNat_ofNat']
    omega
  refine Reads.bind (ys := [_, _]) (b _ h.1) (Reads.bind (ys := [_]) (b _ h.2.1) (Reads.map (f := fun t => FieldDef.mk f.number f.size t) (b _ h.2.2)))

/-- **C165.** A definition is read with all its fields in both byte orders. -/
theorem C165_definition (defs : Nat → Option Def) (d : Def) (h : FitMsgGood defs (.definition d)) : Reads Garmin.definition d (fitMsg defs (.definition d)) := by
  obtain ⟨h1, h2, h3, h4⟩ := h
  refine Reads.bind (xs := [UInt8.ofNat (64 + d.slot)]) (by simpa using reads_record 1 d.slot (by omega) h1) ?_
  refine Reads.bind (xs := [0]) (v := 0) (reads_byte 0 .big (by decide)) ?_
  refine Reads.bind (xs := [if d.big then 1 else 0]) (v := if d.big then 1 else 0) ?_ ?_
  · cases d.big
    · exact reads_byte 0 .big (by decide)
    · exact reads_byte 1 .big (by decide)
  have e : decide ((if d.big then 1 else 0) ≠ 0) = d.big := by cases d.big <;> rfl
  rw [e]
  refine Reads.bind (reads_number _ (endian_ne d.big) 2 _ (by omega) (by omega)) ?_
  refine Reads.bind (xs := [_]) (v := d.fields.length) (Reads.of_eq (reads_byte (UInt8.ofNat d.fields.length) _ (endian_ne d.big)) (by simp only [UInt8.toNat_ofNat']; omega) rfl) ?_
  exact Reads.map (f := fun v => Def.mk d.slot d.big d.number v) (reads_times fieldDef fitFieldDef d.fields fun f hf => reads_fit_def f (h4 f hf))

theorem msg_head (defs : Nat → Option Def) (m : Msg) (h : FitMsgGood defs m) : ∃ b bs, fitMsg defs m = b :: bs ∧ Reads (message defs (b.toNat / 64)) m (b :: bs) := by
  cases m with
  | definition d =>
    refine ⟨_, _, rfl, ?_⟩
    have e : (UInt8.ofNat (64 + d.slot)).toNat / 64 = 1 := by
      have := h.1
      simp only [UInt8.toNat_ofNat']
      omega
    rw [e, message, if_pos rfl]
    exact Reads.map (f := Msg.definition) (C165_definition defs d h)
  | data k vs =>
    refine ⟨_, _, rfl, ?_⟩
    obtain ⟨hk, d, hd, hg⟩ := h
    have e : (UInt8.ofNat k).toNat / 64 = 0 := by
      simp only [UInt8.toNat_ofNat']
      omega
    rw [e, message, if_neg (by decide), if_pos rfl]
    refine Reads.bind (xs := [UInt8.ofNat k]) (by simpa using reads_record 0 k (by omega) hk) ?_
    show Reads (data2 k (defs k)) _ _
    rw [hd]
    exact Reads.map (f := Msg.data k) (reads_fit_fields d.big d.fields vs hg)
  | timestamp _ _ => exact h.elim

/-! ## Files -/

theorem after_eq (defs : Nat → Option Def) (m : Msg) : Garmin.update defs m = fitAfter defs m := by cases m <;> rfl

/-- **C165.** The messages that begin in the first `n` bytes of the file are read, each with the definition of its slot that came last. -/
theorem C165_loop (data : Bytes) (n : Nat) : ∀ (ms : List Msg) (fuel : Nat) (defs : Nat → Option Def) (a : Nat), ms.length < fuel → FitMsgsGood defs ms → fitMsgs defs ms <+: data.drop a →
    a ≤ data.length → n ≤ a + (fitMsgs defs ms).length → AtPlace data (Garmin.loop n fuel defs) (kept n a defs ms) a (a + (fitMsgs defs (kept n a defs ms)).length)
  | ms, 0, _, _, hf, _, _, _, _ => by omega
  | [], fuel + 1, defs, a, _, _, _, _, hn => by
    intro s hs
    rw [Garmin.loop, Rd.bind, Rd.place]
    simp only
    rw [if_neg (by rw [fitMsgs, List.length_nil] at hn; omega)]
    rfl
  | m :: ms, fuel + 1, defs, a, hf, hg, hp, ha, hn => by
    intro s hs
    rw [Garmin.loop, Rd.bind, Rd.place]
    simp only
    by_cases hc : a < n
    · rw [if_pos (by omega), kept, if_pos hc]
      obtain ⟨b, bs, hb, hr⟩ := msg_head defs m hg.1
      rw [fitMsgs] at hp hn
      rw [List.length_append] at hn
      rw [List.length_cons] at hf
      have hr' : Reads (Rd.bind Garmin.kind (message defs)) m (b :: bs) := Reads.kind b hr
      have h1 := hr'.at (data := data) (a := a) (by rw [← hb]; exact prefix_left hp) ha s hs
      rw [← hb] at h1
      have hlen : a + (fitMsg defs m).length ≤ data.length := by
        have := (prefix_left hp).length_le
        rw [List.length_drop] at this
        omega
      have h2 := C165_loop data n ms fuel (fitAfter defs m) (a + (fitMsg defs m).length) (by omega) hg.2 (drop_prefix hp) hlen (by omega) s hs
      rw [Rd.bind] at h1 ⊢
      cases hk : Garmin.kind s (8 * data.length) (8 * a) with
      | error e => rw [hk] at h1; cases h1
      | ok p =>
        rw [hk] at h1
        simp only at h1 ⊢
        rw [Rd.bind, h1]
        simp only
        rw [Rd.bind, after_eq, h2]
        simp only [Rd.pure, fitMsgs, List.length_append, Except.ok.injEq, Prod.mk.injEq, true_and]
        omega
    · rw [if_neg (by omega), kept, if_neg hc]
      rfl

def FitHeaderGood (h : Garmin.Header) : Prop := h.size < 256 ∧ h.protocol < 256 ∧ h.profile < 65536 ∧ h.dataSize < 2 ^ 32 ∧ h.dataType.length = 4 ∧ h.crc < 65536

def fitHeader (h : Garmin.Header) : Bytes := leBytes 1 h.size ++ (leBytes 1 h.protocol ++ (leBytes 2 h.profile ++ (leBytes 4 h.dataSize ++ (h.dataType ++ leBytes 2 h.crc))))

theorem fitHeader_length (h : Garmin.Header) (g : FitHeaderGood h) : (fitHeader h).length = 14 := by
  simp only [fitHeader, List.length_append, leBytes_length, g.2.2.2.2.1]

/-- **C165.** The header. -/
theorem C165_header (h : Garmin.Header) (g : FitHeaderGood h) : Reads Garmin.header h (fitHeader h) := by
  obtain ⟨h1, h2, h3, h4, h5, h6⟩ := g
  refine Reads.bind (reads_int_le 1 _ (by omega) (by omega)) ?_
  refine Reads.bind (reads_int_le 1 _ (by omega) (by omega)) ?_
  refine Reads.bind (reads_int_le 2 _ (by omega) (by omega)) ?_
  refine Reads.bind (reads_int_le 4 _ (by omega) (by omega)) ?_
  refine Reads.bind (reads_raw_n 4 h.dataType h5 (by omega)) ?_
  exact Reads.map (f := fun v => Garmin.Header.mk h.size h.protocol h.profile h.dataSize h.dataType v) (reads_int_le 2 _ (by omega) (by omega))

/-- No message is defined at the beginning. -/
def noDefs : Nat → Option Def := fun _ => none

/-- **C165.** Of a whole file, exactly the messages that begin in the first `dataSize` bytes of the file are told.  (Missing: the messages that begin in the 14 bytes behind, `C165_lost`; the checksum,
`C165_checksum_wrong`; messages with short headers, `C165_compressed_wrong`.) -/
theorem C165_file_partial (h : Garmin.Header) (g : FitHeaderGood h) (ms : List Msg) (hg : FitMsgsGood noDefs ms) (hn : h.dataSize = (fitMsgs noDefs ms).length) (c : Nat)
    (data : Bytes) (hd : data = fitHeader h ++ (fitMsgs noDefs ms ++ leBytes 2 c)) (fuel : Nat) (hf : ms.length < fuel) :
    ∃ crc, AtPlace data (Garmin.file fuel) (h, kept h.dataSize 14 noDefs ms, crc) 0 (14 + (fitMsgs noDefs (kept h.dataSize 14 noDefs ms)).length + 2) := by
  have hl := fitHeader_length h g
  have hdl : data.length = 14 + (fitMsgs noDefs ms).length + 2 := by
    rw [hd]
    simp only [List.length_append, leBytes_length, hl]
    omega
  have h1 := (C165_header h g).at (data := data) (a := 0) (by rw [hd]; simp) (by omega)
  rw [hl] at h1
  have hp : fitMsgs noDefs ms <+: data.drop 14 := by
    rw [hd, List.drop_left' hl]
    exact List.prefix_append _ _
  have h2 := C165_loop data h.dataSize ms fuel noDefs 14 hf hg hp (by omega) (by omega)
  have hk : (fitMsgs noDefs (kept h.dataSize 14 noDefs ms)).length ≤ (fitMsgs noDefs ms).length := by
    have : ∀ (ms : List Msg) (a : Nat) (defs : Nat → Option Def), (fitMsgs defs (kept h.dataSize a defs ms)).length ≤ (fitMsgs defs ms).length := by
      intro ms
      induction ms with
      | nil => intro a defs; rfl
      | cons m ms ih =>
        intro a defs
        rw [kept]
        split
        · simp only [fitMsgs, List.length_append]
          exact Nat.add_le_add_left (ih _ _) _
        · simp [fitMsgs]
    exact this _ _ _
  set b := 14 + (fitMsgs noDefs (kept h.dataSize 14 noDefs ms)).length with hb
  obtain ⟨x, y, hxy⟩ : ∃ x y, [x, y] <+: data.drop b := by
    have : 2 ≤ (data.drop b).length := by rw [List.length_drop]; omega
    match hh : data.drop b, this with
    | x :: y :: r, _ => exact ⟨x, y, r, rfl⟩
    | [_], h => simp at h
    | [], h => simp at h
  refine ⟨256 * x.toNat + y.toNat, ?_⟩
  have hx := x.toNat_lt
  have hy := y.toNat_lt
  have e : beBytes 2 (256 * x.toNat + y.toNat) = [x, y] := by
    simp only [beBytes, leBytes, List.reverse_cons, List.reverse_nil, List.nil_append, List.singleton_append, List.cons.injEq, and_true]
    constructor
    · apply UInt8.toNat_inj.1
      simp only [UInt8.toNat_ofNat']
      omega
    · apply UInt8.toNat_inj.1
      simp only [UInt8.toNat_ofNat']
      omega
  have h3 := (reads_int_be 2 (256 * x.toNat + y.toNat) (by omega) (by omega)).at (data := data) (a := b) (by rw [e]; exact hxy) (by omega)
  rw [beBytes_length] at h3
  exact AtPlace.bind h1 (AtPlace.bind (f := Garmin.file3 h) h2 (AtPlace.map (f := fun v => (h, kept h.dataSize 14 noDefs ms, v)) h3))

/-- **C165.** What is told is the beginning of the messages. -/
theorem C165_beginning (n : Nat) : ∀ (ms : List Msg) (a : Nat) (defs : Nat → Option Def), kept n a defs ms <+: ms
  | [], _, _ => List.prefix_rfl
  | m :: ms, a, defs => by
    rw [kept]
    split
    · exact List.cons_prefix_cons.2 ⟨rfl, C165_beginning n ms _ _⟩
    · exact List.nil_prefix

theorem kept_append (n : Nat) (m : Msg) : ∀ (ms : List Msg) (a : Nat) (defs : Nat → Option Def), n ≤ a + (fitMsgs defs ms).length → kept n a defs (ms ++ [m]) = kept n a defs ms
  | [], a, defs, h => by
    rw [fitMsgs, List.length_nil] at h
    rw [List.nil_append, kept, kept, if_neg (by omega)]
  | m' :: ms, a, defs, h => by
    rw [fitMsgs, List.length_append] at h
    rw [List.cons_append, kept, kept]
    split
    · rw [kept_append n m ms _ _ (by omega)]
    · rfl

/-- **C165** (disagreement): the size of the messages is compared with the size of all that is read, header included; a last message of at most 14 bytes is always lost. -/
theorem C165_lost (n : Nat) (ms : List Msg) (m : Msg) (hn : n = (fitMsgs noDefs (ms ++ [m])).length) (hm : (fitMsgs noDefs (ms ++ [m])).length ≤ (fitMsgs noDefs ms).length + 14) :
    kept n 14 noDefs (ms ++ [m]) = kept n 14 noDefs ms ∧ (kept n 14 noDefs (ms ++ [m])).length < (ms ++ [m]).length := by
  have h := kept_append n m ms 14 noDefs (by omega)
  refine ⟨h, ?_⟩
  have := (C165_beginning n ms 14 noDefs).length_le
  rw [h, List.length_append, List.length_singleton]
  omega

/-- **C165** (disagreement): the checksum, low byte first, is told with its bytes exchanged. -/
theorem C165_checksum_wrong (h : Garmin.Header) (ms : List Msg) (c : Nat) (hc : c < 65536) : Reads (Garmin.file3 h ms) (h, ms, c % 256 * 256 + c / 256) (leBytes 2 c) := by
  refine Reads.of_eq (Reads.map (f := fun v => (h, ms, v)) (reads_int_be 2 (c % 256 * 256 + c / 256) (by omega) (by omega))) rfl ?_
  obtain ⟨q, r, hr, rfl⟩ : ∃ q r, r < 256 ∧ c = 256 * q + r := ⟨c / 256, c % 256, by omega, by omega⟩
  rw [show (256 * q + r) % 256 * 256 + (256 * q + r) / 256 = 256 * r + q by omega]
  show [UInt8.ofNat ((256 * r + q) / 256 % 256), UInt8.ofNat ((256 * r + q) % 256)] = [UInt8.ofNat ((256 * q + r) % 256), UInt8.ofNat ((256 * q + r) / 256 % 256)]
  rw [show (256 * r + q) / 256 % 256 = r by omega, show (256 * q + r) % 256 = r by omega, show (256 * r + q) % 256 = q by omega, show (256 * q + r) / 256 % 256 = q by omega]

/-- **C165** (disagreement): a data message with a short header, of slot `k` (2 bits) and seconds `t` (5 bits), is read as that byte alone, with a bit of the seconds as part of the slot; the values that follow
are taken for messages. -/
theorem C165_compressed_wrong (defs : Nat → Option Def) (k t : Nat) (hk : k < 4) (ht : t < 32) :
    Reads (Rd.bind Garmin.kind (message defs)) (.timestamp (2 * k + t / 16) (t % 16)) [UInt8.ofNat (128 + 32 * k + t)] := by
  refine Reads.kind _ ?_
  have e : (UInt8.ofNat (128 + 32 * k + t)).toNat = 128 + 32 * k + t := by
    simp only [UInt8.toNat_ofNat']
    omega
  rw [e, message, if_neg (by omega), if_neg (by omega)]
  refine Reads.of_eq (Reads.map (f := fun v : List Nat => Msg.timestamp (v.getD 1 0) (v.getD 2 0)) (reads_packed_be 1 [1, 3, 4] [1, 2 * k + t / 16, t % 16] (by decide) rfl (by simp [Fit]; omega))) rfl ?_
  have : joinBE [1, 3, 4] [1, 2 * k + t / 16, t % 16] = 128 + 32 * k + t := by simp [joinBE]; omega
  rw [this]
  show [UInt8.ofNat ((128 + 32 * k + t) % 256)] = [UInt8.ofNat (128 + 32 * k + t)]
  rw [Nat.mod_eq_of_lt (by omega)]

/-- **C165** (disagreement): of a file with the short header of 12 bytes, the first two bytes of the messages are taken for the checksum of the header. -/
theorem C165_short_wrong (protocol profile n : Nat) (h1 : protocol < 256) (h2 : profile < 65536) (h3 : n < 2 ^ 32) (a b : UInt8) :
    Reads Garmin.header ⟨12, protocol, profile, n, [0x2E, 0x46, 0x49, 0x54], a.toNat + 256 * b.toNat⟩
      ((leBytes 1 12 ++ (leBytes 1 protocol ++ (leBytes 2 profile ++ (leBytes 4 n ++ [0x2E, 0x46, 0x49, 0x54])))) ++ [a, b]) := by
  have ha := a.toNat_lt
  have hb := b.toNat_lt
  refine Reads.of_eq (C165_header ⟨12, protocol, profile, n, [0x2E, 0x46, 0x49, 0x54], a.toNat + 256 * b.toNat⟩ ⟨by simp, h1, h2, h3, rfl, by show a.toNat + 256 * b.toNat < 65536; omega⟩) rfl ?_
  have e : leBytes 2 (a.toNat + 256 * b.toNat) = [a, b] := by
    simp only [leBytes, List.cons.injEq, and_true]
    constructor
    · apply UInt8.toNat_inj.1
      simp only [UInt8.toNat_ofNat']
      omega
    · apply UInt8.toNat_inj.1
      simp only [UInt8.toNat_ofNat']
      omega
  simp only [fitHeader, e, List.append_assoc, List.cons_append, List.nil_append]

/-! ## Examples -/

/-- A definition of two fields and a message with them. -/
def fitExample : List Msg := [.definition ⟨3, true, 20, [⟨0, 4, 0x85⟩, ⟨1, 4, 0x84⟩]⟩, .data 3 [[.signed (-2)], [.unsigned 7, .unsigned 8]]]

example : FitMsgsGood noDefs fitExample := by
  refine ⟨⟨by decide, by decide, by decide, ?_⟩, ⟨by decide, _, rfl, ⟨.signed 4, by decide +kernel, ?_, by decide +kernel, by decide, by decide, by simp⟩, ⟨.unsigned 2, by decide +kernel, ?_, by decide +kernel, by decide, by decide, by simp⟩, trivial⟩, trivial⟩
  · decide
  · intro v hv
    simp only [List.mem_singleton] at hv
    subst hv
    simp [FitValueGood]
  · intro v hv
    simp only [List.mem_cons, List.not_mem_nil, or_false] at hv
    rcases hv with rfl | rfl <;> simp [FitValueGood]

example : fitMsgs noDefs fitExample = [0x43, 0, 1, 0, 20, 2, 0, 4, 0x85, 1, 4, 0x84, 3, 0xFF, 0xFF, 0xFF, 0xFE, 0, 7, 0, 8] := by decide +kernel

/-- The definition is told, the message is lost. -/
example : kept 21 14 noDefs fitExample = [.definition ⟨3, true, 20, [⟨0, 4, 0x85⟩, ⟨1, 4, 0x84⟩]⟩] := by decide +kernel

example : (fitMsgs noDefs ([.definition ⟨3, true, 20, [⟨0, 4, 0x85⟩, ⟨1, 4, 0x84⟩]⟩] ++ [.data 3 [[.signed (-2)], [.unsigned 7, .unsigned 8]]])).length ≤ (fitMsgs noDefs [.definition ⟨3, true, 20, [⟨0, 4, 0x85⟩, ⟨1, 4, 0x84⟩]⟩]).length + 14 := by decide +kernel

example : FitHeaderGood ⟨14, 16, 2132, 21, [0x2E, 0x46, 0x49, 0x54], 0⟩ := by unfold FitHeaderGood; decide

end Hachoir.Props

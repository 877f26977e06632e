import Verif.Formats.Midi
import Verif.Props.VarInt
import Verif.Props.Records

/-!
# C108, C109, C110: MIDI files

The specification `MidiEvents` writes events as the standard does: a delta time in base 128,
the number of the command unless it is the one of the channel message just before, and the data.
-/

set_option linter.unusedVariables false

namespace Hachoir.Props
open Hachoir Hachoir.Stream Hachoir.Formats Hachoir.Formats.Midi Spec

/-! ## Specification -/

/-- The data of a channel message. -/
inductive VoiceBytes : UInt8 → Content → Bytes → Prop
  | note (st n v : UInt8) (h1 : 0x80 ≤ st.toNat) (h2 : st.toNat < 0xb0) (hn : n.toNat < 128) :
      VoiceBytes st (.note n.toNat v.toNat) [n, v]
  | control (st n v : UInt8) (h1 : 0xb0 ≤ st.toNat) (h2 : st.toNat < 0xc0) (hn : n.toNat < 128) :
      VoiceBytes st (.control n.toNat v.toNat) [n, v]
  | patch (st n : UInt8) (h1 : 0xc0 ≤ st.toNat) (h2 : st.toNat < 0xd0) (hn : n.toNat < 128) :
      VoiceBytes st (.patch n.toNat) [n]
  | channel (st n : UInt8) (h1 : 0xd0 ≤ st.toNat) (h2 : st.toNat < 0xe0) (hn : n.toNat < 128) :
      VoiceBytes st (.channel n.toNat) [n]
  | pitch (st n v : UInt8) (h1 : 0xe0 ≤ st.toNat) (h2 : st.toNat < 0xf0) (hn : n.toNat < 128) :
      VoiceBytes st (.pitch n.toNat v.toNat) [n, v]

/-- The data of a meta event: of the types with a fixed length, this length. -/
inductive MetaBytes : UInt8 → Content → Bytes → Prop
  | empty (m : UInt8) : MetaBytes m .nothing []
  | text (m : UInt8) (t : Bytes) (h1 : 1 ≤ m.toNat) (h2 : m.toNat ≤ 7) (ht : t ≠ []) : MetaBytes m (.text t) t
  | channel (c : UInt8) : MetaBytes 0x20 (.channel c.toNat) [c]
  | tempo (t : Nat) (h : t < 2 ^ 24) : MetaBytes 0x51 (.tempo t) (beBytes 3 t)
  | smpte (rate hour : Nat) (m s f x : UInt8) (h1 : rate < 4) (h2 : hour < 32) :
      MetaBytes 0x54 (.smpte rate hour m.toNat s.toNat f.toNat x.toNat) [UInt8.ofNat (32 * rate + hour), m, s, f, x]
  | signature (a b c d : UInt8) : MetaBytes 0x58 (.signature a.toNat b.toNat c.toNat d.toNat) [a, b, c, d]
  | raw (m : UInt8) (t : Bytes) (h1 : m.toNat = 0 ∨ 7 < m.toNat) (h2 : m.toNat ≠ 0x20) (h3 : m.toNat ≠ 0x51)
      (h4 : m.toNat ≠ 0x54) (h5 : m.toNat ≠ 0x58) (ht : t ≠ []) : MetaBytes m (.raw t) t

/-- One event; the parameter is the running status. -/
inductive EventBytes : Option UInt8 → Nat → Command → Bytes → Prop
  | voice (run : Option UInt8) (k : Nat) (ds : List Nat) (st : UInt8) (c : Content) (b : Bytes) (hd : Digits ds)
      (hl : ds.length ≤ 4) (hb : VoiceBytes st c b) :
      EventBytes run k ⟨8 * k, ofDigitsBE 128 ds, st.toNat, none, c⟩ (groups ds ++ st :: b)
  | running (k : Nat) (ds : List Nat) (st : UInt8) (c : Content) (b : Bytes) (hd : Digits ds)
      (hl : ds.length ≤ 4) (hb : VoiceBytes st c b) :
      EventBytes (some st) k ⟨8 * k, ofDigitsBE 128 ds, st.toNat, none, c⟩ (groups ds ++ b)
  | mark (run : Option UInt8) (k : Nat) (ds ls : List Nat) (m : UInt8) (c : Content) (b : Bytes) (hd : Digits ds)
      (hl : ds.length ≤ 4) (hd2 : Digits ls) (hl2 : ls.length ≤ 4) (hv : ofDigitsBE 128 ls = b.length) (hb : MetaBytes m c b) :
      EventBytes run k ⟨8 * k, ofDigitsBE 128 ds, 255, some m.toNat, c⟩ (groups ds ++ 255 :: m :: (groups ls ++ b))

/-- The running status after an event: a meta event ends it. -/
def runningAfter (c : Command) : Option UInt8 := if c.mark.isSome then none else some (UInt8.ofNat c.status)

/-- Events one after the other, from byte `k`. -/
inductive MidiEvents : Option UInt8 → Nat → List Command → Bytes → Prop
  | nil (run : Option UInt8) (k : Nat) : MidiEvents run k [] []
  | cons (run : Option UInt8) (k : Nat) (c : Command) (b : Bytes) (cs : List Command) (bs : Bytes) (h : EventBytes run k c b)
      (ht : MidiEvents (runningAfter c) (k + b.length) cs bs) : MidiEvents run k (c :: cs) (b ++ bs)

/-! ## Events -/

theorem byteAt_in {data : Bytes} {s : InputStream} (hs : stringInputStream data = .ok s) (k : Nat) (b : UInt8)
    (hp : [b] <+: data.drop k) (ad : Nat) (had : ad = 8 * k) : byteAt s ad = .ok b.toNat := by
  subst had
  exact read_byte data s hs k b .big (by simp) hp _ rfl

theorem cons_drop {data : Bytes} {k : Nat} {x : UInt8} {xs : Bytes} (h : x :: xs <+: data.drop k) : xs <+: data.drop (k + 1) :=
  drop_prefix (xs := [x]) (by simpa using h)

theorem cons_one {data : Bytes} {k : Nat} {x : UInt8} {xs : Bytes} (h : x :: xs <+: data.drop k) : [x] <+: data.drop k :=
  prefix_left (xs := [x]) (ys := xs) (by simpa using h)

theorem read_digits {data : Bytes} {s : InputStream} (hs : stringInputStream data = .ok s) (k : Nat) (ds : List Nat)
    (hd : Digits ds) (hl : ds.length ≤ 4) (hp : groups ds <+: data.drop k) (ad : Nat) (had : ad = 8 * k) :
    midiInteger s .big (ad : Int) = .ok (ofDigitsBE 128 ds, 8 * ds.length) := by
  subst had
  exact ((C54_midi data s hs .big (by simp) k).1 _ _).2 ⟨ds, ⟨hd, hl, hp⟩, rfl, rfl⟩

theorem read_voice {data : Bytes} {s : InputStream} (hs : stringInputStream data = .ok s) (st : UInt8) (c : Content) (b : Bytes)
    (hb : VoiceBytes st c b) (k : Nat) (hp : b <+: data.drop k) (ad : Nat) (had : ad = 8 * k) :
    readChannel s st.toNat ad = .ok (c, 8 * (k + b.length)) := by
  subst had
  cases hb with
  | note n v h1 h2 hn =>
    rw [readChannel, if_pos ⟨h1, h2⟩, byteAt_in hs k n (cons_one hp) _ rfl]
    simp only [bind, Except.bind]
    rw [byteAt_in hs (k + 1) v (cons_drop hp) _ (by omega)]
    simp only [List.length_cons, List.length_nil]
    exact congrArg (fun x => Except.ok (Content.note n.toNat v.toNat, x)) (by omega)
  | control n v h1 h2 hn =>
    rw [readChannel, if_neg (by omega), if_pos ⟨h1, h2⟩, byteAt_in hs k n (cons_one hp) _ rfl]
    simp only [bind, Except.bind]
    rw [byteAt_in hs (k + 1) v (cons_drop hp) _ (by omega)]
    simp only [List.length_cons, List.length_nil]
    exact congrArg (fun x => Except.ok (Content.control n.toNat v.toNat, x)) (by omega)
  | patch n h1 h2 hn =>
    rw [readChannel, if_neg (by omega), if_neg (by omega), if_pos ⟨h1, h2⟩, byteAt_in hs k n (cons_one hp) _ rfl]
    simp only [bind, Except.bind, List.length_cons, List.length_nil]
    exact congrArg (fun x => Except.ok (Content.patch n.toNat, x)) (by omega)
  | channel n h1 h2 hn =>
    rw [readChannel, if_neg (by omega), if_neg (by omega), if_neg (by omega), if_pos ⟨h1, h2⟩, byteAt_in hs k n (cons_one hp) _ rfl]
    simp only [bind, Except.bind, List.length_cons, List.length_nil]
    exact congrArg (fun x => Except.ok (Content.channel n.toNat, x)) (by omega)
  | pitch n v h1 h2 hn =>
    rw [readChannel, if_neg (by omega), if_neg (by omega), if_neg (by omega), if_neg (by omega), if_pos ⟨h1, h2⟩,
      byteAt_in hs k n (cons_one hp) _ rfl]
    simp only [bind, Except.bind]
    rw [byteAt_in hs (k + 1) v (cons_drop hp) _ (by omega)]
    simp only [List.length_cons, List.length_nil]
    exact congrArg (fun x => Except.ok (Content.pitch n.toNat v.toNat, x)) (by omega)

theorem voice_head (st : UInt8) (c : Content) (b : Bytes) (hb : VoiceBytes st c b) :
    128 ≤ st.toNat ∧ st.toNat < 240 ∧ ∃ n t, b = n :: t ∧ n.toNat < 128 := by
  cases hb with
  | note n v h1 h2 hn => exact ⟨h1, by omega, n, _, rfl, hn⟩
  | control n v h1 h2 hn => exact ⟨by omega, by omega, n, _, rfl, hn⟩
  | patch n h1 h2 hn => exact ⟨by omega, by omega, n, _, rfl, hn⟩
  | channel n h1 h2 hn => exact ⟨by omega, by omega, n, _, rfl, hn⟩
  | pitch n v h1 h2 hn => exact ⟨by omega, by omega, n, _, rfl, hn⟩

theorem read_meta {data : Bytes} {s : InputStream} (hs : stringInputStream data = .ok s) (m : UInt8) (c : Content) (b : Bytes)
    (hb : MetaBytes m c b) (hne : b ≠ []) (k : Nat) (hp : b <+: data.drop k) (ad : Nat) (had : ad = 8 * k) :
    readMeta s m.toNat b.length ad = .ok (c, 8 * (k + b.length)) := by
  subst had
  cases hb with
  | empty => exact absurd rfl hne
  | text _ _ h1 h2 ht =>
    rw [readMeta, if_pos ⟨h1, h2⟩, readBytes_prefix data s hs k _ hp]
    simp only [bind, Except.bind]
    exact congrArg (fun x => Except.ok (Content.text b, x)) (by omega)
  | channel c =>
    rw [readMeta, if_neg (by decide), if_pos (by decide), byteAt_in hs k c hp _ rfl]
    simp only [bind, Except.bind, List.length_cons, List.length_nil]
    exact congrArg (fun x => Except.ok (Content.channel c.toNat, x)) (by omega)
  | tempo t h =>
    rw [readMeta, if_neg (by decide), if_neg (by decide), if_pos (by decide),
      read_be data s hs 3 k t (by omega) (by omega) hp 24 rfl _ rfl]
    simp only [bind, Except.bind, beBytes_length]
    exact congrArg (fun x => Except.ok (Content.tempo t, x)) (by omega)
  | smpte rate hour mi se f x h1 h2 =>
    have e0 : ofBytesBE [UInt8.ofNat (32 * rate + hour)] = 32 * rate + hour := by
      simp [ofBytesBE]; omega
    have r1 := readBits_mid data s hs k 1 2 _ (cons_one hp) (by simp) (by simp) ((8 * k + 1 : Nat) : Int) rfl
    have r2 := readBits_mid data s hs k 3 5 _ (cons_one hp) (by simp) (by simp) ((8 * k + 3 : Nat) : Int) rfl
    rw [e0] at r1 r2
    rw [readMeta, if_neg (by decide), if_neg (by decide), if_neg (by decide), if_pos (by decide), r1]
    simp only [bind, Except.bind]
    rw [r2]
    simp only []
    rw [byteAt_in hs (k + 1) mi (cons_one (cons_drop hp)) _ (by omega)]
    simp only []
    rw [byteAt_in hs (k + 2) se (cons_one (cons_drop (cons_drop hp))) _ (by omega)]
    simp only []
    rw [byteAt_in hs (k + 3) f (cons_one (cons_drop (cons_drop (cons_drop hp)))) _ (by omega)]
    simp only []
    rw [byteAt_in hs (k + 4) x (cons_drop (cons_drop (cons_drop (cons_drop hp)))) _ (by omega)]
    have e1 : (32 * rate + hour) / 2 ^ (8 * [UInt8.ofNat (32 * rate + hour)].length - 1 - 2) % 2 ^ 2 = rate := by
      simp only [List.length_cons, List.length_nil]; norm_num; omega
    have e2 : (32 * rate + hour) / 2 ^ (8 * [UInt8.ofNat (32 * rate + hour)].length - 3 - 5) % 2 ^ 5 = hour := by
      simp only [List.length_cons, List.length_nil]; norm_num; omega
    simp only [e1, e2]
    exact congrArg (fun y => Except.ok (Content.smpte rate hour mi.toNat se.toNat f.toNat x.toNat, y))
      (by simp only [List.length_cons, List.length_nil]; omega)
  | signature a b c d =>
    rw [readMeta, if_neg (by decide), if_neg (by decide), if_neg (by decide), if_neg (by decide), if_pos (by decide),
      byteAt_in hs k a (cons_one hp) _ (by omega)]
    simp only [bind, Except.bind]
    rw [byteAt_in hs (k + 1) b (cons_one (cons_drop hp)) _ (by omega)]
    simp only []
    rw [byteAt_in hs (k + 2) c (cons_one (cons_drop (cons_drop hp))) _ (by omega)]
    simp only []
    rw [byteAt_in hs (k + 3) d (cons_drop (cons_drop (cons_drop hp))) _ (by omega)]
    simp only [List.length_cons, List.length_nil]
    exact congrArg (fun y => Except.ok (Content.signature a.toNat b.toNat c.toNat d.toNat, y)) (by omega)
  | raw _ _ h1 h2 h3 h4 h5 ht =>
    rw [readMeta, if_neg (by omega), if_neg h2, if_neg h3, if_neg h4, if_neg h5, readBytes_prefix data s hs k _ hp]
    simp only [bind, Except.bind]
    exact congrArg (fun x => Except.ok (Content.raw b, x)) (by omega)

theorem meta_size (m : UInt8) (c : Content) (b : Bytes) (hb : MetaBytes m c b) (h : b = []) : c = .nothing := by
  cases hb with
  | empty => rfl
  | text _ _ h1 h2 ht => exact absurd h ht
  | channel c => cases h
  | tempo t _ =>
    have := congrArg List.length h
    rw [beBytes_length] at this
    cases this
  | smpte => cases h
  | signature => cases h
  | raw _ _ h1 h2 h3 h4 h5 ht => exact absurd h ht

theorem read_mark {data : Bytes} {s : InputStream} (hs : stringInputStream data = .ok s) (ls : List Nat) (m : UInt8) (c : Content)
    (b : Bytes) (hd2 : Digits ls) (hl2 : ls.length ≤ 4) (hv : ofDigitsBE 128 ls = b.length) (hb : MetaBytes m c b) (k : Nat)
    (hp : m :: (groups ls ++ b) <+: data.drop k) (ad : Nat) (had : ad = 8 * k) :
    readMark s ad = .ok (m.toNat, c, 8 * (k + 1 + ls.length + b.length)) := by
  subst had
  have hp1 := cons_drop hp
  have hp2 := drop_prefix hp1
  rw [length_groups] at hp2
  rw [readMark, byteAt_in hs k m (cons_one hp) _ rfl]
  simp only [bind, Except.bind]
  rw [read_digits hs (k + 1) ls hd2 hl2 (prefix_left hp1) _ (by omega)]
  simp only [hv]
  by_cases h0 : b = []
  · have := meta_size m c b hb h0
    subst this h0
    rw [if_pos (by rfl)]
    exact congrArg (fun x => Except.ok (m.toNat, Content.nothing, x)) (by simp; omega)
  · rw [if_neg (fun h => h0 (List.eq_nil_of_length_eq_zero h)), read_meta hs m c b hb h0 (k + 1 + ls.length) hp2 _ (by omega)]

/-- C108: an event is read as what it is. -/
theorem C108_event (data : Bytes) (s : InputStream) (hs : stringInputStream data = .ok s) (run : Option UInt8) (k : Nat)
    (c : Command) (b : Bytes) (h : EventBytes run k c b) (hp : b <+: data.drop k) (prev : Option Nat)
    (hrun : ∀ st, run = some st → prev = some st.toNat) :
    readCommand s prev (8 * k) = .ok (c, 8 * (k + b.length)) := by
  cases h with
  | voice _ _ ds st c b hd hl hb =>
    have hp1 := drop_prefix hp
    rw [length_groups] at hp1
    obtain ⟨g1, g2, -⟩ := voice_head st c b hb
    rw [readCommand, read_digits hs k ds hd hl (prefix_left hp) _ rfl]
    simp only [readStatus]
    rw [byteAt_in hs (k + ds.length) st (cons_one hp1) _ (by omega)]
    simp only []
    rw [if_neg (fun h => by have := (and128 _ st.toNat_lt).1 h; omega)]
    simp only []
    rw [if_neg (by omega), read_voice hs st c b hb (k + ds.length + 1) (cons_drop hp1) _ (by omega)]
    simp only [List.length_append, length_groups, List.length_cons]
    exact congrArg (fun x => Except.ok (Command.mk (8 * k) (ofDigitsBE 128 ds) st.toNat none c, x)) (by omega)
  | running _ ds st c b hd hl hb =>
    have hp1 := drop_prefix hp
    rw [length_groups] at hp1
    obtain ⟨g1, g2, n, t, rfl, hn⟩ := voice_head st c b hb
    rw [readCommand, read_digits hs k ds hd hl (prefix_left hp) _ rfl]
    simp only [readStatus]
    rw [byteAt_in hs (k + ds.length) n (cons_one hp1) _ (by omega)]
    simp only []
    rw [if_pos ((and128 _ n.toNat_lt).2 hn), hrun st rfl]
    simp only []
    rw [if_neg (by omega), read_voice hs st c _ hb (k + ds.length) hp1 _ (by omega)]
    simp only [List.length_append, length_groups, List.length_cons]
    exact congrArg (fun x => Except.ok (Command.mk (8 * k) (ofDigitsBE 128 ds) st.toNat none c, x)) (by omega)
  | mark _ _ ds ls m c b hd hl hd2 hl2 hv hb =>
    have hp1 := drop_prefix hp
    rw [length_groups] at hp1
    rw [readCommand, read_digits hs k ds hd hl (prefix_left hp) _ rfl]
    simp only [readStatus]
    rw [byteAt_in hs (k + ds.length) 255 (cons_one hp1) _ (by omega)]
    simp only []
    rw [if_neg (by decide)]
    simp only []
    rw [if_pos (by decide), read_mark hs ls m c b hd2 hl2 hv hb (k + ds.length + 1) (cons_drop hp1) _ (by omega)]
    simp only [List.length_append, length_groups, List.length_cons]
    exact congrArg (fun x => Except.ok (Command.mk (8 * k) (ofDigitsBE 128 ds) 255 (some m.toNat) c, x)) (by omega)

theorem event_length (run : Option UInt8) (k : Nat) (c : Command) (b : Bytes) (h : EventBytes run k c b) : 0 < b.length := by
  cases h with
  | voice _ _ ds st c b hd hl hb => simp
  | running _ ds st c b hd hl hb =>
    obtain ⟨-, -, n, t, rfl, -⟩ := voice_head st c b hb
    simp
  | mark _ _ ds ls m c b hd hl hd2 hl2 hv hb => simp

theorem running_status (run : Option UInt8) (k : Nat) (c : Command) (b : Bytes) (h : EventBytes run k c b) (st : UInt8)
    (hst : runningAfter c = some st) : c.status = st.toNat := by
  cases h with
  | voice _ _ ds st' c b hd hl hb =>
    simp only [runningAfter, Option.isSome_none, Bool.false_eq_true, if_false, Option.some.injEq] at hst
    rw [← hst]; simp
  | running _ ds st' c b hd hl hb =>
    simp only [runningAfter, Option.isSome_none, Bool.false_eq_true, if_false, Option.some.injEq] at hst
    rw [← hst]; simp
  | mark _ _ ds ls m c b hd hl hd2 hl2 hv hb => simp [runningAfter] at hst

/-- C108: the commands of a track are exactly its events, each at its place. -/
theorem C108_commands (data : Bytes) (s : InputStream) (hs : stringInputStream data = .ok s) (run : Option UInt8) (k : Nat)
    (cs : List Command) (b : Bytes) (h : MidiEvents run k cs b) (hp : b <+: data.drop k) (prev : Option Nat)
    (hrun : ∀ st, run = some st → prev = some st.toNat) (fuel : Nat) (hf : b.length < fuel) :
    readCommands s fuel prev (8 * (k + b.length)) (8 * k) = .ok cs := by
  induction h generalizing prev fuel with
  | nil run k =>
    cases fuel with
    | zero => omega
    | succ fuel =>
      rw [readCommands, if_neg (by simp)]
  | cons run k c b cs bs h ht ih =>
    cases fuel with
    | zero => omega
    | succ fuel =>
      have h0 := event_length run k c b h
      rw [List.length_append] at hf ⊢
      rw [readCommands, if_pos (by omega), C108_event data s hs run k c b h (prefix_left hp) prev hrun]
      simp only []
      rw [if_neg (by omega)]
      have := ih (drop_prefix hp) (some c.status) (fun st hst => by rw [running_status run k c b h st hst]) fuel (by omega)
      rw [Nat.add_assoc] at this
      rw [this]

/-- The bytes of a track. -/
def trackBytes (b : Bytes) : Bytes := [77, 84, 114, 107] ++ beBytes 4 b.length ++ b

theorem track_length (b : Bytes) : (trackBytes b).length = 8 + b.length := by
  simp [trackBytes, beBytes_length]; omega

/-- C108: a track. -/
theorem C108_track (data : Bytes) (s : InputStream) (hs : stringInputStream data = .ok s) (k : Nat) (cs : List Command) (b : Bytes)
    (h : MidiEvents none (k + 8) cs b) (hb : b.length < 2 ^ 32) (hp : trackBytes b <+: data.drop k) (fuel : Nat)
    (hf : b.length < fuel) : readTrack s fuel (8 * k) = .ok ⟨8 * k, 8 * (8 + b.length), cs⟩ := by
  have hp' : [[77, 84, 114, 107], beBytes 4 b.length, b].flatten <+: data.drop k := by simpa [trackBytes] using hp
  rw [readTrack, read_be data s hs 4 (k + 4) b.length (by omega) (by omega) (record_part _ 1 _ rfl _ (by simp) hp') 32 rfl _
    (by push_cast; omega)]
  simp only [bind, Except.bind]
  have := C108_commands data s hs none (k + 8) cs b h (record_part _ 2 _ rfl _ (by simp [beBytes_length]) hp') none (by simp) fuel hf
  rw [show 8 * k + (8 + b.length) * 8 = 8 * (k + 8 + b.length) by omega, show 8 * k + 64 = 8 * (k + 8) by omega, this]
  exact congrArg (fun x => Except.ok (Track.mk (8 * k) x cs)) (by omega)

/-- Tracks one after the other. -/
inductive MidiTracks : Nat → List Track → List Bytes → Prop
  | nil (k : Nat) : MidiTracks k [] []
  | cons (k : Nat) (cs : List Command) (b : Bytes) (ts : List Track) (bs : List Bytes) (h : MidiEvents none (k + 8) cs b)
      (hb : b.length < 2 ^ 32) (ht : MidiTracks (k + 8 + b.length) ts bs) :
      MidiTracks k (⟨8 * k, 8 * (8 + b.length), cs⟩ :: ts) (b :: bs)

theorem read_tracks (data : Bytes) (s : InputStream) (hs : stringInputStream data = .ok s) (k : Nat) (ts : List Track) (bs : List Bytes)
    (h : MidiTracks k ts bs) (hp : (bs.map trackBytes).flatten = data.drop k) (hk : k ≤ data.length) (inner fuel : Nat)
    (hi : data.length < inner) (hf : data.length - k < fuel) : readTracks s inner fuel (8 * data.length) (8 * k) = .ok ts := by
  induction h generalizing fuel with
  | nil k =>
    cases fuel with
    | zero => omega
    | succ fuel =>
      have : (data.drop k).length = 0 := by rw [← hp]; rfl
      rw [List.length_drop] at this
      rw [readTracks, if_neg (by omega)]
  | cons k cs b ts bs h hb ht ih =>
    cases fuel with
    | zero => omega
    | succ fuel =>
      rw [List.map_cons, List.flatten_cons] at hp
      have hl : data.length - k = 8 + b.length + ((bs.map trackBytes).flatten).length := by
        rw [← List.length_drop, ← hp, List.length_append, track_length]
      rw [readTracks, if_pos (by omega), C108_track data s hs k cs b h hb ⟨_, hp⟩ inner (by omega)]
      simp only []
      rw [show 8 * k + 8 * (8 + b.length) = 8 * (k + 8 + b.length) by omega,
        ih (by rw [Nat.add_assoc, ← track_length b, ← List.drop_drop, ← hp, List.drop_left]) (by omega) fuel (by omega)]

/-- The bytes of a file with these tracks. -/
def midiBytes (format tracks delta : Nat) (bs : List Bytes) : Bytes :=
  [77, 84, 104, 100] ++ beBytes 4 6 ++ beBytes 2 format ++ beBytes 2 tracks ++ beBytes 2 delta ++ (bs.map trackBytes).flatten

theorem read_header (data : Bytes) (s : InputStream) (hs : stringInputStream data = .ok s) (format tracks delta : Nat)
    (h1 : format < 2 ^ 16) (h2 : tracks < 2 ^ 16) (h3 : delta < 2 ^ 16) (rest : Bytes)
    (hp : [77, 84, 104, 100] ++ beBytes 4 6 ++ beBytes 2 format ++ beBytes 2 tracks ++ beBytes 2 delta ++ rest <+: data) :
    readHeader s = .ok ⟨6, format, tracks, delta⟩ ∧ valid s = .ok true := by
  have hp' : [[77, 84, 104, 100], beBytes 4 6, beBytes 2 format, beBytes 2 tracks, beBytes 2 delta, rest].flatten <+: data.drop 0 := by
    simpa using hp
  have r1 := read_be data s hs 4 4 6 (by omega) (by omega) (record_part _ 1 _ rfl _ (by simp) hp') 32 rfl 32 rfl
  have r2 := read_be data s hs 2 8 format (by omega) (by omega) (record_part _ 2 _ rfl _ (by simp [beBytes_length]) hp') 16 rfl 64 rfl
  have r3 := read_be data s hs 2 10 tracks (by omega) (by omega) (record_part _ 3 _ rfl _ (by simp [beBytes_length]) hp') 16 rfl 80 rfl
  have r4 := read_be data s hs 2 12 delta (by omega) (by omega) (record_part _ 4 _ rfl _ (by simp [beBytes_length]) hp') 16 rfl 96 rfl
  have r0 := readBytes_prefix data s hs 0 [77, 84, 104, 100] (record_part _ 0 _ rfl _ (by simp) hp')
  constructor
  · rw [readHeader, r1]
    simp only [bind, Except.bind]
    rw [r2]
    simp only []
    rw [r3]
    simp only []
    rw [r4]
  · have r0' : readBytes s 0 4 = .ok [77, 84, 104, 100] := r0
    rw [valid, r0']
    simp only [bind, Except.bind]
    rw [if_neg (by decide), r1]
    rfl

/-- C108: a file whose header has not the size 6 is refused. -/
theorem C108_refused (size : Nat) (h : size < 2 ^ 32) (h6 : size ≠ 6) (rest : Bytes) (s : InputStream)
    (hs : stringInputStream ([77, 84, 104, 100] ++ (beBytes 4 size ++ rest)) = .ok s) : valid s = .ok false := by
  have hp' : [[77, 84, 104, 100], beBytes 4 size, rest].flatten <+: ([77, 84, 104, 100] ++ (beBytes 4 size ++ rest)).drop 0 := ⟨[], by simp⟩
  have r1 := read_be _ s hs 4 4 size (by omega) h (record_part _ 1 _ rfl _ (by simp) hp') 32 rfl 32 rfl
  have r0 : readBytes s 0 4 = .ok [77, 84, 104, 100] := readBytes_prefix _ s hs 0 [77, 84, 104, 100] (record_part _ 0 _ rfl _ (by simp) hp')
  rw [valid, r0]
  simp only [bind, Except.bind]
  rw [if_neg (by decide), r1]
  simp only [h6, decide_false]

/-- C108: a file is divided into its header and tracks, the tracks into their events. -/
theorem C108_file (format tracks delta : Nat) (ts : List Track) (bs : List Bytes) (h1 : format < 2 ^ 16) (h2 : tracks < 2 ^ 16)
    (h3 : delta < 2 ^ 16) (h : MidiTracks 14 ts bs) (s : InputStream)
    (hs : stringInputStream (midiBytes format tracks delta bs) = .ok s) (fuel : Nat)
    (hf : (midiBytes format tracks delta bs).length < fuel) :
    valid s = .ok true ∧
    readFile s fuel (8 * (midiBytes format tracks delta bs).length) = .ok (⟨6, format, tracks, delta⟩, ts) := by
  obtain ⟨r1, r2⟩ := read_header _ s hs format tracks delta h1 h2 h3 _ (List.prefix_rfl)
  refine ⟨r2, ?_⟩
  have hl : ([77, 84, 104, 100] ++ beBytes 4 6 ++ beBytes 2 format ++ beBytes 2 tracks ++ beBytes 2 delta : Bytes).length = 14 := by
    simp [beBytes_length]
  have hd : (bs.map trackBytes).flatten = (midiBytes format tracks delta bs).drop 14 := by
    rw [midiBytes, ← hl, List.drop_left]
  rw [readFile, r1]
  simp only [bind, Except.bind]
  rw [show (112 : Nat) = 8 * 14 by rfl, read_tracks _ s hs 14 ts bs h hd
    (by rw [midiBytes, List.length_append, hl]; omega) fuel fuel hf (by omega)]

/-! ## What is not read as the standard says -/

/-- C108, violated: a system exclusive message (240 or 247) and every other command from 240 to 254 is
refused, the rest of the track is not read. -/
theorem C108_sysex (data : Bytes) (s : InputStream) (hs : stringInputStream data = .ok s) (k : Nat) (ds : List Nat)
    (hd : Digits ds) (hl : ds.length ≤ 4) (st : UInt8) (h1 : 240 ≤ st.toNat) (h2 : st.toNat < 255)
    (hp : groups ds ++ [st] <+: data.drop k) (prev : Option Nat) : readCommand s prev (8 * k) = .error .parser := by
  have hp1 := drop_prefix hp
  rw [length_groups] at hp1
  rw [readCommand, read_digits hs k ds hd hl (prefix_left hp) _ rfl]
  simp only [readStatus]
  rw [byteAt_in hs (k + ds.length) st hp1 _ (by omega)]
  simp only []
  rw [if_neg (fun h => by have := (and128 _ st.toNat_lt).1 h; omega)]
  simp only []
  rw [if_neg (by omega), readChannel, if_neg (by omega), if_neg (by omega), if_neg (by omega), if_neg (by omega), if_neg (by omega)]

/-- C108: a command without number after nothing is refused, and after a meta event it is read as
another meta event, whatever the last channel message was. -/
theorem C108_running_after_meta (data : Bytes) (s : InputStream) (hs : stringInputStream data = .ok s) (k : Nat) (ds : List Nat)
    (hd : Digits ds) (hl : ds.length ≤ 4) (n : UInt8) (hn : n.toNat < 128) (hp : groups ds ++ [n] <+: data.drop k) :
    readCommand s none (8 * k) = .error .parser ∧
    ∀ c e, readCommand s (some 255) (8 * k) = .ok (c, e) → c.status = 255 ∧ c.mark = some n.toNat := by
  have hp1 := drop_prefix hp
  rw [length_groups] at hp1
  have r := byteAt_in hs (k + ds.length) n hp1 (8 * k + 8 * ds.length) (by omega)
  have hz := (and128 _ n.toNat_lt).2 hn
  constructor
  · rw [readCommand, read_digits hs k ds hd hl (prefix_left hp) _ rfl]
    simp only [readStatus]
    rw [r]
    simp only []
    rw [if_pos hz]
  · intro c e h
    rw [readCommand, read_digits hs k ds hd hl (prefix_left hp) _ rfl] at h
    simp only [readStatus] at h
    rw [r] at h
    simp only [] at h
    rw [if_pos hz] at h
    simp only [if_true] at h
    cases hm : readMark s (8 * k + 8 * ds.length) with
    | error e' => rw [hm] at h; cases h
    | ok v =>
      obtain ⟨m, c', e'⟩ := v
      rw [hm] at h
      simp only [Except.ok.injEq, Prod.mk.injEq] at h
      obtain ⟨rfl, rfl⟩ := h
      refine ⟨rfl, ?_⟩
      rw [readMark, r] at hm
      simp only [bind, Except.bind] at hm
      revert hm
      cases midiInteger s .big ((8 * k + 8 * ds.length + 8 : Nat) : Int) with
      | error e2 => intro hm; cases hm
      | ok v2 =>
        simp only []
        split
        · intro hm
          simp only [Except.ok.injEq, Prod.mk.injEq] at hm
          exact congrArg some hm.1.symm
        · cases readMeta s n.toNat v2.1 (8 * k + 8 * ds.length + 8 + v2.2) with
          | error e3 => intro hm; cases hm
          | ok v3 =>
            intro hm
            simp only [Except.ok.injEq, Prod.mk.injEq] at hm
            exact congrArg some hm.1.symm

/-- C108, violated: the size of an event of a type with fixed length is not used.  A tempo event of
any size but 0 is taken to have three bytes. -/
theorem C108_size_ignored (data : Bytes) (s : InputStream) (hs : stringInputStream data = .ok s) (k t size : Nat) (ls : List Nat)
    (hd : Digits ls) (hl : ls.length ≤ 4) (hv : ofDigitsBE 128 ls = size) (h0 : size ≠ 0) (ht : t < 2 ^ 24)
    (hp : 0x51 :: (groups ls ++ beBytes 3 t) <+: data.drop k) :
    readMark s (8 * k) = .ok (0x51, .tempo t, 8 * (k + 1 + ls.length + 3)) := by
  have hp1 := cons_drop hp
  have hp2 := drop_prefix hp1
  rw [length_groups] at hp2
  rw [readMark, byteAt_in hs k 0x51 (cons_one hp) _ rfl]
  simp only [bind, Except.bind]
  rw [read_digits hs (k + 1) ls hd hl (prefix_left hp1) _ (by omega)]
  simp only [hv]
  rw [if_neg h0, readMeta, if_neg (by decide), if_neg (by decide), if_pos (by decide),
    read_be data s hs 3 (k + 1 + ls.length) t (by omega) (by omega) hp2 24 rfl _ (by push_cast; omega)]
  simp only [bind, Except.bind]
  exact congrArg (fun x => Except.ok (81, Content.tempo t, x)) (by omega)

/-! ## The size of the file -/

theorem track_addr (data : Bytes) (s : InputStream) (hs : stringInputStream data = .ok s) (bs : List Bytes)
    (hb : ∀ b ∈ bs, b.length < 2 ^ 32) (k : Nat) (hp : (bs.map trackBytes).flatten <+: data.drop k) :
    trackAddr s bs.length (8 * k) = .ok (8 * (k + ((bs.map trackBytes).flatten).length)) := by
  induction bs generalizing k with
  | nil => rfl
  | cons b bs ih =>
    rw [List.map_cons, List.flatten_cons] at hp ⊢
    have hp' : [[77, 84, 114, 107], beBytes 4 b.length, b].flatten <+: data.drop k := by
      simpa [trackBytes] using prefix_left hp
    have hp2 := drop_prefix hp
    rw [track_length] at hp2
    rw [List.length_cons, trackAddr, read_be data s hs 4 (k + 4) b.length (by omega)
      (by have := hb b (by simp); omega) (record_part _ 1 _ rfl _ (by simp) hp') 32 rfl _ (by push_cast; omega)]
    simp only []
    rw [show 8 * k + (8 + b.length) * 8 = 8 * (k + (8 + b.length)) by omega, ih (fun x hx => hb x (by simp [hx])) _ hp2,
      List.length_append, track_length]
    exact congrArg Except.ok (by omega)

/-- C109: the size of the file is the end of the first `FF 2F 00` found from the start of the last track. -/
theorem C109_first (format delta : Nat) (bs : List Bytes) (b rest : Bytes) (h1 : format < 2 ^ 16) (h2 : bs.length + 1 < 2 ^ 16)
    (h3 : delta < 2 ^ 16) (hb : ∀ x ∈ bs, x.length < 2 ^ 32) (s : InputStream)
    (hs : stringInputStream (midiBytes format (bs.length + 1) delta bs ++ (trackBytes b ++ rest)) = .ok s)
    (j : Nat) (hj : [255, 47, 0] <+: (trackBytes b).drop j) (hfirst : ∀ i, i < j → ¬ [255, 47, 0] <+: (trackBytes b).drop i)
    (hlen : (midiBytes format (bs.length + 1) delta bs).length + j + 3 ≤ 10 * 1024 * 1024) :
    contentSize s = .ok (some ((8 * ((midiBytes format (bs.length + 1) delta bs).length + j + 3) : Nat) : Int)) := by
  obtain ⟨data, hdata⟩ : ∃ d, midiBytes format (bs.length + 1) delta bs ++ (trackBytes b ++ rest) = d := ⟨_, rfl⟩
  rw [hdata] at hs
  have hpre : midiBytes format (bs.length + 1) delta bs <+: data := ⟨_, hdata⟩
  obtain ⟨r1, -⟩ := read_header data s hs format (bs.length + 1) delta h1 h2 h3 _ hpre
  have hl : ([77, 84, 104, 100] ++ beBytes 4 6 ++ beBytes 2 format ++ beBytes 2 (bs.length + 1) ++ beBytes 2 delta : Bytes).length = 14 := by
    simp [beBytes_length]
  have hd : (bs.map trackBytes).flatten <+: data.drop 14 := by
    have := drop_prefix (k := 0) (data := data) (xs := [77, 84, 104, 100] ++ beBytes 4 6 ++ beBytes 2 format ++
      beBytes 2 (bs.length + 1) ++ beBytes 2 delta) (ys := (bs.map trackBytes).flatten) hpre
    rw [hl] at this
    exact this
  obtain ⟨M, hM⟩ : ∃ M, (midiBytes format (bs.length + 1) delta bs).length = M := ⟨_, rfl⟩
  have hM' : 14 + ((bs.map trackBytes).flatten).length = M := by rw [← hM, midiBytes, List.length_append, hl]
  have hdrop : ∀ i, data.drop (M + i) = (trackBytes b ++ rest).drop i := by
    intro i
    rw [← hdata, ← hM, List.drop_append]
    simp
  have hjl := hj.length_le
  rw [List.length_drop, List.length_cons, List.length_cons, List.length_cons, List.length_nil] at hjl
  have hocc : ∀ i, i ≤ j → ([255, 47, 0] <+: data.drop (M + i) ↔ [255, 47, 0] <+: (trackBytes b).drop i) := by
    intro i hi
    rw [hdrop, List.drop_append_of_le_length (by omega)]
    constructor
    · intro h
      exact List.prefix_of_prefix_length_le h (List.prefix_append _ _) (by simp; omega)
    · intro h
      exact h.trans (List.prefix_append _ _)
  have hdl : data.length = M + ((trackBytes b).length + rest.length) := by
    rw [← hdata, List.length_append, hM, List.length_append]
  rw [hM] at hlen ⊢
  obtain ⟨r, hr, hspec⟩ := _root_.Props.C05_searchBytes data [255, 47, 0] s hs (by simp) M (some (10 * 1024 * 1024 * 8))
    (min (10 * 1024 * 1024) data.length) (by simp only []; omega) (by omega)
  rw [contentSize, r1]
  simp only [bind, Except.bind, Nat.add_one_ne_zero, if_false, Nat.add_sub_cancel]
  have hta := track_addr data s hs bs hb 14 hd
  rw [hM'] at hta
  rw [show (112 : Nat) = 8 * 14 by rfl, hta]
  simp only []
  have hr' : searchBytes s [255, 47, 0] ((8 * M : Nat) : Int) (some (10 * 1024 * 1024 * 8)) = .ok r := hr
  rw [hr']
  cases r with
  | none =>
    exact absurd ((hocc j (Nat.le_refl j)).2 hj) (hspec (M + j) (by omega) (by simp only [List.length_cons, List.length_nil]; omega))
  | some a =>
    obtain ⟨k, rfl, hk0, hk1, hk2, hk3⟩ := hspec
    have hkj : k = M + j := by
      rcases Nat.lt_trichotomy k (M + j) with h | h | h
      · obtain ⟨i, rfl⟩ := Nat.exists_eq_add_of_le hk0
        exact absurd ((hocc i (by omega)).1 hk2) (hfirst i (by omega))
      · exact h
      · exact absurd ((hocc j (Nat.le_refl j)).2 hj) (hk3 (M + j) (by omega) h)
    subst hkj
    simp only []
    exact congrArg (fun x => Except.ok (some x)) (by push_cast; omega)

/-- C109: with the usual end-of-track event last and these bytes nowhere before in the last track,
the size of the file is found, whatever follows. -/
theorem C109_size_partial (format delta : Nat) (bs : List Bytes) (b rest : Bytes) (h1 : format < 2 ^ 16) (h2 : bs.length + 1 < 2 ^ 16)
    (h3 : delta < 2 ^ 16) (hb : ∀ x ∈ bs, x.length < 2 ^ 32) (s : InputStream)
    (hs : stringInputStream (midiBytes format (bs.length + 1) delta bs ++ (trackBytes b ++ rest)) = .ok s)
    (pre : Bytes) (hlast : b = pre ++ [255, 47, 0])
    (hfirst : ∀ i, i + 3 < (trackBytes b).length → ¬ [255, 47, 0] <+: (trackBytes b).drop i)
    (hlen : (midiBytes format (bs.length + 1) delta bs).length + (trackBytes b).length ≤ 10 * 1024 * 1024) :
    contentSize s = .ok (some ((8 * ((midiBytes format (bs.length + 1) delta bs).length + (trackBytes b).length) : Nat) : Int)) := by
  have hl : (trackBytes b).length = 8 + pre.length + 3 := by rw [track_length, hlast]; simp; omega
  have hd : (trackBytes b).drop (8 + pre.length) = [255, 47, 0] := by
    have e : trackBytes b = ([77, 84, 114, 107] ++ beBytes 4 b.length ++ pre) ++ [255, 47, 0] := by
      rw [trackBytes]
      conv => lhs; rw [hlast]
      rw [hlast]; simp
    have hl2 : ([77, 84, 114, 107] ++ beBytes 4 b.length ++ pre : Bytes).length = 8 + pre.length := by simp [beBytes_length]; omega
    rw [e, ← hl2, List.drop_left]
  have := C109_first format delta bs b rest h1 h2 h3 hb s hs (8 + pre.length) (by rw [hd])
    (fun i hi => hfirst i (by omega)) (by omega)
  rw [this, hl]
  exact congrArg (fun x : Nat => Except.ok (some ((8 * x : Nat) : Int))) (by omega)

/-- A track: a note that is struck, and released after 16303 ticks, by running status with
velocity 0; then the end of the track. -/
def sampleTrack : Bytes := [0, 0x90, 0, 64, 0xff, 0x2f, 0, 0, 0, 0xff, 0x2f, 0]

theorem sampleTrack_events : MidiEvents none 22
    [⟨176, 0, 144, none, .note 0 64⟩, ⟨208, 16303, 144, none, .note 0 0⟩, ⟨240, 0, 255, some 47, .nothing⟩] sampleTrack := by
  refine .cons none 22 _ [0, 0x90, 0, 64] _ [0xff, 0x2f, 0, 0, 0, 0xff, 0x2f, 0]
    (.voice none 22 [0] 0x90 _ _ ⟨by decide, by decide⟩ (by decide) (.note 0x90 0 64 (by decide) (by decide) (by decide))) ?_
  refine .cons (some 0x90) 26 _ [0xff, 0x2f, 0, 0] _ [0, 0xff, 0x2f, 0]
    (.running 26 [127, 47] 0x90 _ _ ⟨by decide, by decide⟩ (by decide) (.note 0x90 0 0 (by decide) (by decide) (by decide))) ?_
  exact .cons (some 0x90) 30 _ [0, 0xff, 0x2f, 0] _ []
    (.mark (some 0x90) 30 [0] [0] 47 _ [] ⟨by decide, by decide⟩ (by decide) ⟨by decide, by decide⟩ (by decide) rfl (.empty 47)) (.nil _ _)

/-- The file with this track is read as its events. -/
example (s : InputStream) (hs : stringInputStream (midiBytes 0 1 96 [sampleTrack]) = .ok s) :
    readFile s 50 (8 * 34) = .ok (⟨6, 0, 1, 96⟩, [⟨112, 160,
      [⟨176, 0, 144, none, .note 0 64⟩, ⟨208, 16303, 144, none, .note 0 0⟩, ⟨240, 0, 255, some 47, .nothing⟩]⟩]) := by
  have e : (midiBytes 0 1 96 [sampleTrack]).length = 34 := by decide +kernel
  have := C108_file 0 1 96 _ _ (by decide) (by decide) (by decide)
    (.cons 14 _ sampleTrack _ _ sampleTrack_events (by decide) (.nil _)) s hs 50 (by rw [e]; decide)
  rw [e] at this
  exact this.2

/-- C109, violated: a delta time may look like the end of the track.  This file of 34 bytes is given a
size of 29 bytes. -/
theorem C109_delta_time (s : InputStream) (hs : stringInputStream (midiBytes 0 1 96 [sampleTrack]) = .ok s) :
    contentSize s = .ok (some ((8 * 29 : Nat) : Int)) ∧ (midiBytes 0 1 96 [sampleTrack]).length = 34 := by
  refine ⟨?_, by decide +kernel⟩
  have e : midiBytes 0 1 96 [sampleTrack] = midiBytes 0 (([] : List Bytes).length + 1) 96 [] ++ (trackBytes sampleTrack ++ []) := by
    decide +kernel
  rw [e] at hs
  have hl : (midiBytes 0 (([] : List Bytes).length + 1) 96 []).length = 14 := by decide +kernel
  have := C109_first 0 96 [] sampleTrack [] (by decide) (by decide) (by decide) (by simp) s hs 12 (by decide +kernel)
    (by decide +kernel) (by rw [hl]; decide)
  rw [hl] at this
  exact this

/-- A file of one track that is followed by other data. -/
example (s : InputStream)
    (hs : stringInputStream (midiBytes 0 1 96 [] ++ (trackBytes [0, 0x90, 60, 64, 0, 0xff, 0x2f, 0] ++ [1, 2, 3])) = .ok s) :
    contentSize s = .ok (some ((8 * 30 : Nat) : Int)) := by
  have hl : (midiBytes 0 (([] : List Bytes).length + 1) 96 []).length = 14 := by decide +kernel
  have := C109_size_partial 0 96 [] [0, 0x90, 60, 64, 0, 0xff, 0x2f, 0] [1, 2, 3] (by decide) (by decide) (by decide) (by simp) s hs
    [0, 0x90, 60, 64, 0] rfl (by
      intro i hi
      have h16 : (trackBytes [0, 0x90, 60, 64, 0, 0xff, 0x2f, 0]).length = 16 := by decide +kernel
      rw [h16] at hi
      have : ∀ i : Fin 13, ¬ ([255, 47, 0] : Bytes) <+: (trackBytes [0, 0x90, 60, 64, 0, 0xff, 0x2f, 0]).drop i.val := by decide +kernel
      exact this ⟨i, by omega⟩) (by rw [hl]; decide +kernel)
  rw [hl] at this
  have h16 : (trackBytes [0, 0x90, 60, 64, 0, 0xff, 0x2f, 0]).length = 16 := by decide +kernel
  rw [h16] at this
  exact this

/-- C109, violated: a header that announces no track. -/
theorem C109_no_track (format delta : Nat) (h1 : format < 2 ^ 16) (h3 : delta < 2 ^ 16) (bs : List Bytes) (s : InputStream)
    (hs : stringInputStream (midiBytes format 0 delta bs) = .ok s) : contentSize s = .error .missingField := by
  obtain ⟨r1, -⟩ := read_header _ s hs format 0 delta h1 (by decide) h3 _ List.prefix_rfl
  rw [contentSize, r1]
  simp only [bind, Except.bind, if_true]

/-! ## Names of notes -/

/-- The twelve notes. -/
def noteNames : List String := ["C", "C#", "D", "D#", "E", "F", "F#", "G", "G#", "A", "A#", "B"]

/-- C110: the first nine notes of every octave have their names. -/
theorem C110_named_partial (n : Nat) (h : n < 120) (h9 : n % 12 < 9) :
    noteName n = (noteNames[n % 12]?).map fun x => (x, n / 12) := by
  have : ∀ n : Fin 120, n.val % 12 < 9 → noteName n.val = (noteNames[n.val % 12]?).map fun x => (x, n.val / 12) := by decide +kernel
  exact this ⟨n, h⟩ h9

/-- C110, violated: the other three never have: A is called G sharp, A sharp is called A, and B is
called A sharp. -/
theorem C110_wrong (n : Nat) (h : n < 120) (h9 : 9 ≤ n % 12) :
    noteName n = (noteNames[n % 12 - 1]?).map fun x => (x, n / 12) := by
  have : ∀ n : Fin 120, 9 ≤ n.val % 12 → noteName n.val = (noteNames[n.val % 12 - 1]?).map fun x => (x, n.val / 12) := by decide +kernel
  exact this ⟨n, h⟩ h9

/-- C110, violated: note 120, C of the next octave, is called B, and the notes from 121 to 127 have no name. -/
theorem C110_last : noteName 120 = some ("B", 9) ∧ ∀ n, 120 < n → noteName n = none := by
  refine ⟨by decide +kernel, fun n h => ?_⟩
  have hall : ∀ x ∈ noteItems, x.1 ≤ 120 := by decide +kernel
  rw [noteName, List.find?_eq_none.2 (fun x hx => ?_)]
  · rfl
  · have := hall x (List.mem_reverse.1 hx)
    simp only [beq_iff_eq]; omega

/-- Concert pitch (440 Hz, note 69) is shown as G sharp. -/
example : noteName 69 = some ("G#", 5) ∧ noteNames[69 % 12]? = some "A" := by decide +kernel

end Hachoir.Props

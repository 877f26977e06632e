import Verif.Formats.Tcpdump
import Verif.Props.Rpm
import Verif.Props.Packed

/-!
# Captured network packets
-/

namespace Hachoir.Props
open Hachoir Hachoir.Stream Hachoir.Field Hachoir.Formats Hachoir.Formats.Tcpdump Spec

/-! ## Layers -/

/-- The options of TCP: all but the first have a length, which counts their first two bytes. -/
def optBytes : Opt → Bytes
  | .nop => [1]
  | .maxSegment v => [2, 4] ++ beBytes 2 v
  | .windowScale v => [3, 3] ++ beBytes 1 v
  | .timestamp a b => [8, 10] ++ (beBytes 4 a ++ beBytes 4 b)
  | .other c d => beBytes 1 c ++ (beBytes 1 (d.length + 2) ++ d)

/-- Option 0, which ends the list and has no length, is left out. -/
def OptGood : Opt → Prop
  | .nop => True
  | .maxSegment v => v < 65536
  | .windowScale v => v < 256
  | .timestamp a b => a < 2 ^ 32 ∧ b < 2 ^ 32
  | .other c d => c < 256 ∧ c ≠ 0 ∧ c ≠ 1 ∧ c ≠ 2 ∧ c ≠ 3 ∧ c ≠ 8 ∧ d.length < 254

def ipv4Service : List Nat := [4, 4, 3, 1, 1, 1, 2]
def ipv4Flags : List Nat := [1, 1, 1, 5, 8]
def ipv6Bits : List Nat := [4, 8, 20, 16, 8, 8]
def tcpBits : List Nat := [6, 2, 1, 1, 1, 1, 1, 1, 1, 1]

/-- What layers are on the wire. -/
def layerBytes : Layer → Bytes
  | .ethernet dst src p => dst ++ (src ++ beBytes 2 p)
  | .unicast a b c source p => beBytes 2 a ++ (beBytes 2 b ++ (beBytes 2 c ++ (source ++ beBytes 2 p)))
  | .arp a b c d e m1 i1 m2 i2 => beBytes 2 a ++ (beBytes 2 b ++ (beBytes 1 c ++ (beBytes 1 d ++ (beBytes 2 e ++ (m1 ++ (i1 ++ (m2 ++ i2)))))))
  | .ipv4 service len id flags ttl p sum src dst opts =>
    beBytes 2 (joinBE ipv4Service service) ++ (beBytes 2 len ++ (beBytes 2 id ++ (beBytes 2 (joinBE ipv4Flags flags) ++ (beBytes 1 ttl ++ (beBytes 1 p ++
      (beBytes 2 sum ++ (src ++ (dst ++ opts))))))))
  | .ipv6 bits src dst => beBytes 8 (joinBE ipv6Bits bits) ++ (src ++ dst)
  | .tcp src dst seq ack bits window sum urgent os =>
    beBytes 2 src ++ (beBytes 2 dst ++ (beBytes 4 seq ++ (beBytes 4 ack ++ (beBytes 2 (joinBE tcpBits bits) ++ (beBytes 2 window ++ (beBytes 2 sum ++
      (beBytes 2 urgent ++ os.flatMap optBytes)))))))
  | .udp src dst len sum => beBytes 2 src ++ (beBytes 2 dst ++ (beBytes 2 len ++ beBytes 2 sum))
  | .icmp t c sum more => beBytes 1 t ++ (beBytes 1 c ++ (beBytes 2 sum ++ more.flatMap (beBytes 2)))
  | .icmpv6 t c sum more => beBytes 1 t ++ (beBytes 1 c ++ (beBytes 2 sum ++ more.flatMap (beBytes 2)))

/-- Numbers have room, and lengths of headers are right. -/
def LayerGood : Layer → Prop
  | .ethernet dst src p => dst.length = 6 ∧ src.length = 6 ∧ p < 65536
  | .unicast a b c source p => a < 65536 ∧ b < 65536 ∧ c < 65536 ∧ source.length = 8 ∧ p < 65536
  | .arp a b c d e m1 i1 m2 i2 => a < 65536 ∧ b < 65536 ∧ c < 256 ∧ d < 256 ∧ e < 65536 ∧ m1.length = 6 ∧ i1.length = 4 ∧ m2.length = 6 ∧ i2.length = 4
  | .ipv4 service len id flags ttl p sum src dst opts => Fit ipv4Service service ∧ len < 65536 ∧ id < 65536 ∧ Fit ipv4Flags flags ∧ ttl < 256 ∧ p < 256 ∧ sum < 65536 ∧
      src.length = 4 ∧ dst.length = 4 ∧ 4 * service.getD 1 0 = 20 + opts.length
  | .ipv6 bits src dst => Fit ipv6Bits bits ∧ src.length = 16 ∧ dst.length = 16
  | .tcp src dst seq ack bits window sum urgent os => src < 65536 ∧ dst < 65536 ∧ seq < 2 ^ 32 ∧ ack < 2 ^ 32 ∧ Fit tcpBits bits ∧ window < 65536 ∧ sum < 65536 ∧
      urgent < 65536 ∧ bits.getD 0 0 = 20 + (os.flatMap optBytes).length ∧ ∀ o ∈ os, OptGood o
  | .udp src dst len sum => src < 65536 ∧ dst < 65536 ∧ len < 65536 ∧ sum < 65536
  | .icmp t c sum more => t < 256 ∧ c < 256 ∧ sum < 65536 ∧ (∀ v ∈ more, v < 65536) ∧ more.length = if t = 8 ∨ t = 0 ∨ t = 3 then 2 else 0
  | .icmpv6 t c sum more => t < 256 ∧ c < 256 ∧ sum < 65536 ∧ (∀ v ∈ more, v < 65536) ∧ more.length = if t = 128 ∨ t = 129 then 2 else 0

def layerKind : Layer → Kind
  | .ethernet .. => .ethernet
  | .unicast .. => .unicast
  | .arp .. => .arp
  | .ipv4 .. => .ipv4
  | .ipv6 .. => .ipv6
  | .tcp .. => .tcp
  | .udp .. => .udp
  | .icmp .. => .icmp
  | .icmpv6 .. => .icmpv6

theorem reads_options : ∀ (os : List Opt) (n : Nat), os.length < n → (∀ o ∈ os, OptGood o) →
    Reads (options n (8 * (os.flatMap optBytes).length)) os (os.flatMap optBytes)
  | [], n + 1, _, _ => reads_pure _
  | o :: os, n + 1, hn, h => by
    have ih := reads_options os n (by simpa using hn) fun x hx => h x (by simp [hx])
    have ho := h o (by simp)
    have sized : ∀ (c : Nat) (d : Bytes), c < 256 → c ≠ 1 → d.length < 254 → optBytes o = beBytes 1 c ++ (beBytes 1 (d.length + 2) ++ d) →
        Reads (optBody c (d.length + 2)) o d → Reads (options (n + 1) (8 * ((o :: os).flatMap optBytes).length)) (o :: os) ((o :: os).flatMap optBytes) := by
      intro c d hc h1 hd he hb
      rw [List.flatMap_cons, List.length_append]
      have hl : (optBytes o).length = d.length + 2 := by rw [he]; simp only [List.length_append, beBytes_length]; omega
      rw [options, if_neg (by omega), he, List.append_assoc, List.append_assoc]
      refine Reads.bind (reads_int_be 1 c (by omega) (by omega)) ?_
      rw [if_neg h1]
      refine Reads.bind (reads_int_be 1 _ (by omega) (by omega)) ?_
      rw [if_neg (by omega), Nat.add_sub_cancel]
      refine Reads.bind (ReadsAll.within hb.all _ rfl) ?_
      have e : 8 * ((beBytes 1 c ++ (beBytes 1 (d.length + 2) ++ d)).length + (os.flatMap optBytes).length) - 8 * (d.length + 2) = 8 * (os.flatMap optBytes).length := by
        simp only [List.length_append, beBytes_length]
        omega
      rw [e]
      exact Reads.map (f := fun os => o :: os) ih
    cases o with
    | nop =>
      rw [List.flatMap_cons, List.length_append, show optBytes .nop = [1] from rfl]
      have h1 : ([1] : Bytes).length = 1 := rfl
      rw [options, h1, if_neg (by omega)]
      refine Reads.bind (reads_byte 1 .big (by decide)) ?_
      rw [if_pos (by rfl), show 8 * (1 + (os.flatMap optBytes).length) - 8 = 8 * (os.flatMap optBytes).length by omega]
      exact Reads.map (f := fun os => Opt.nop :: os) ih
    | maxSegment v =>
      have hv : v < 65536 := ho
      refine sized 2 (beBytes 2 v) (by omega) (by omega) (by rw [beBytes_length]; omega) (by rw [beBytes_length]; rfl) ?_
      exact Reads.map (f := fun v => Opt.maxSegment v) (reads_int_be 2 v (by omega) (by omega))
    | windowScale v =>
      have hv : v < 256 := ho
      refine sized 3 (beBytes 1 v) (by omega) (by omega) (by rw [beBytes_length]; omega) (by rw [beBytes_length]; rfl) ?_
      exact Reads.map (f := fun v => Opt.windowScale v) (reads_int_be 1 v (by omega) (by omega))
    | timestamp a b =>
      obtain ⟨h1, h2⟩ := ho
      refine sized 8 (beBytes 4 a ++ beBytes 4 b) (by omega) (by omega) (by simp only [List.length_append, beBytes_length]; omega)
        (by simp only [List.length_append, beBytes_length]; rfl) ?_
      refine Reads.bind (reads_int_be 4 a (by omega) (by omega)) ?_
      exact Reads.map (f := fun b => Opt.timestamp a b) (reads_int_be 4 b (by omega) (by omega))
    | other c d =>
      obtain ⟨h1, h2, h3, h4, h5, h6, h7⟩ := ho
      refine sized c d h1 h3 h7 rfl ?_
      rw [optBody, if_neg h4, if_neg h5, if_neg h6, Nat.add_sub_cancel]
      exact Reads.map (f := fun d => Opt.other c d) (reads_raw_or d _ rfl)

theorem options_length (os : List Opt) : os.length ≤ (os.flatMap optBytes).length := by
  induction os with
  | nil => simp
  | cons o os ih =>
    have : 0 < (optBytes o).length := by
      cases o <;> simp only [optBytes, List.length_append, List.length_cons, beBytes_length] <;> omega
    rw [List.flatMap_cons, List.length_append, List.length_cons]
    omega

theorem reads_layer (l : Layer) (g : LayerGood l) : Reads (layer (layerKind l)) l (layerBytes l) := by
  cases l with
  | ethernet dst src p =>
    obtain ⟨h1, h2, h3⟩ := g
    refine Reads.bind (reads_raw_n 6 _ h1 (by omega)) ?_
    refine Reads.bind (reads_raw_n 6 _ h2 (by omega)) ?_
    exact Reads.map (f := fun p => Layer.ethernet dst src p) (reads_int_be 2 _ (by omega) (by omega))
  | unicast a b c source p =>
    obtain ⟨h1, h2, h3, h4, h5⟩ := g
    refine Reads.bind (reads_int_be 2 _ (by omega) (by omega)) ?_
    refine Reads.bind (reads_int_be 2 _ (by omega) (by omega)) ?_
    refine Reads.bind (reads_int_be 2 _ (by omega) (by omega)) ?_
    refine Reads.bind (reads_raw_n 8 _ h4 (by omega)) ?_
    exact Reads.map (f := fun p => Layer.unicast a b c source p) (reads_int_be 2 _ (by omega) (by omega))
  | arp a b c d e m1 i1 m2 i2 =>
    obtain ⟨h1, h2, h3, h4, h5, h6, h7, h8, h9⟩ := g
    refine Reads.bind (reads_int_be 2 _ (by omega) (by omega)) ?_
    refine Reads.bind (reads_int_be 2 _ (by omega) (by omega)) ?_
    refine Reads.bind (reads_int_be 1 _ (by omega) (by omega)) ?_
    refine Reads.bind (reads_int_be 1 _ (by omega) (by omega)) ?_
    refine Reads.bind (reads_int_be 2 _ (by omega) (by omega)) ?_
    refine Reads.bind (reads_raw_n 6 _ h6 (by omega)) ?_
    refine Reads.bind (reads_raw_n 4 _ h7 (by omega)) ?_
    refine Reads.bind (reads_raw_n 6 _ h8 (by omega)) ?_
    exact Reads.map (f := fun x => Layer.arp a b c d e m1 i1 m2 x) (reads_raw_n 4 _ h9 (by omega))
  | ipv4 service len id flags ttl p sum src dst opts =>
    obtain ⟨h1, h2, h3, h4, h5, h6, h7, h8, h9, h10⟩ := g
    refine Reads.bind (reads_packed_be 2 ipv4Service service (by omega) rfl h1) ?_
    refine Reads.bind (reads_int_be 2 _ (by omega) (by omega)) ?_
    refine Reads.bind (reads_int_be 2 _ (by omega) (by omega)) ?_
    refine Reads.bind (reads_packed_be 2 ipv4Flags flags (by omega) rfl h4) ?_
    refine Reads.bind (reads_int_be 1 _ (by omega) (by omega)) ?_
    refine Reads.bind (reads_int_be 1 _ (by omega) (by omega)) ?_
    refine Reads.bind (reads_int_be 2 _ (by omega) (by omega)) ?_
    refine Reads.bind (reads_raw_n 4 _ h8 (by omega)) ?_
    refine Reads.bind (reads_raw_n 4 _ h9 (by omega)) ?_
    exact Reads.map (f := fun o => Layer.ipv4 service len id flags ttl p sum src dst o) (reads_raw_or opts _ (by omega))
  | ipv6 bits src dst =>
    obtain ⟨h1, h2, h3⟩ := g
    refine Reads.bind (reads_packed_be 8 ipv6Bits bits (by omega) rfl h1) ?_
    refine Reads.bind (reads_raw_n 16 _ h2 (by omega)) ?_
    exact Reads.map (f := fun d => Layer.ipv6 bits src d) (reads_raw_n 16 _ h3 (by omega))
  | tcp src dst seq ack bits window sum urgent os =>
    obtain ⟨h1, h2, h3, h4, h5, h6, h7, h8, h9, h10⟩ := g
    refine Reads.bind (reads_int_be 2 _ (by omega) (by omega)) ?_
    refine Reads.bind (reads_int_be 2 _ (by omega) (by omega)) ?_
    refine Reads.bind (reads_int_be 4 _ (by omega) (by omega)) ?_
    refine Reads.bind (reads_int_be 4 _ (by omega) (by omega)) ?_
    refine Reads.bind (reads_packed_be 2 tcpBits bits (by omega) rfl h5) ?_
    refine Reads.bind (reads_int_be 2 _ (by omega) (by omega)) ?_
    refine Reads.bind (reads_int_be 2 _ (by omega) (by omega)) ?_
    refine Reads.bind (reads_int_be 2 _ (by omega) (by omega)) ?_
    have hb : bits.getD 0 0 < 64 := by
      cases bits with
      | nil => exact h5.elim
      | cons b bs => exact h5.1
    have hl := options_length os
    rw [show 8 * bits.getD 0 0 - 160 = 8 * (os.flatMap optBytes).length by omega]
    exact Reads.map (f := fun o => Layer.tcp src dst seq ack bits window sum urgent o) (reads_options os 64 (by omega) h10)
  | udp src dst len sum =>
    obtain ⟨h1, h2, h3, h4⟩ := g
    refine Reads.bind (reads_int_be 2 _ (by omega) (by omega)) ?_
    refine Reads.bind (reads_int_be 2 _ (by omega) (by omega)) ?_
    refine Reads.bind (reads_int_be 2 _ (by omega) (by omega)) ?_
    exact Reads.map (f := fun d => Layer.udp src dst len d) (reads_int_be 2 _ (by omega) (by omega))
  | icmp t c sum more =>
    obtain ⟨h1, h2, h3, h4, h5⟩ := g
    refine Reads.bind (reads_int_be 1 _ (by omega) (by omega)) ?_
    refine Reads.bind (reads_int_be 1 _ (by omega) (by omega)) ?_
    refine Reads.bind (reads_int_be 2 _ (by omega) (by omega)) ?_
    exact Reads.map (f := fun m => Layer.icmp t c sum m) (reads_times_n _ (beBytes 2) more _ h5.symm fun v hv => reads_int_be 2 _ (by omega) (by have := h4 v hv; omega))
  | icmpv6 t c sum more =>
    obtain ⟨h1, h2, h3, h4, h5⟩ := g
    refine Reads.bind (reads_int_be 1 _ (by omega) (by omega)) ?_
    refine Reads.bind (reads_int_be 1 _ (by omega) (by omega)) ?_
    refine Reads.bind (reads_int_be 2 _ (by omega) (by omega)) ?_
    exact Reads.map (f := fun m => Layer.icmpv6 t c sum m) (reads_times_n _ (beBytes 2) more _ h5.symm fun v hv => reads_int_be 2 _ (by omega) (by have := h4 v hv; omega))

/-! ## Packets -/

/-- What an IP protocol number says follows. -/
def ipKind : Nat → Option Kind
  | 1 => some .icmp
  | 6 => some .tcp
  | 17 => some .udp
  | 58 => some .icmpv6
  | _ => none

/-- What the type of an Ethernet frame says follows. -/
def etherKind : Nat → Option Kind
  | 0x0800 => some .ipv4
  | 0x0806 => some .arp
  | 0x86dd => some .ipv6
  | _ => none

/-- A fragment but the first: its offset is not 0. -/
def laterFragment : Layer → Bool
  | .ipv4 _ _ _ flags _ _ _ _ _ _ => decide (256 * flags.getD 3 0 + flags.getD 4 0 ≠ 0)
  | _ => false

/-- The header that follows a layer.  A later fragment has none. -/
def follows (l : Layer) : Option Kind :=
  if laterFragment l then none
  else match l with
    | .ethernet _ _ p => etherKind p
    | .unicast _ _ _ _ p => etherKind p
    | .ipv4 _ _ _ _ _ p _ _ _ _ => ipKind p
    | .ipv6 bits _ _ => ipKind (bits.getD 4 0)
    | .icmp 3 _ _ _ => some .ipv4
    | _ => none

/-- Layers that follow each other, the first is of this kind. -/
def Chain : Kind → List Layer → Prop
  | _, [] => False
  | k, l :: ls => layerKind l = k ∧ LayerGood l ∧ match follows l with
    | none => ls = []
    | some k => Chain k ls

theorem protocol_eq (n : Nat) : protocol n = ipKind n := by
  unfold protocol ipKind
  by_cases h1 : n = 1
  · subst h1; rfl
  by_cases h2 : n = 6
  · subst h2; rfl
  by_cases h3 : n = 17
  · subst h3; rfl
  by_cases h4 : n = 58
  · subst h4; rfl
  simp [h1, h2, h3, h4]

theorem linkProtocol_eq (n : Nat) : linkProtocol n = etherKind n := by
  unfold linkProtocol etherKind
  by_cases h1 : n = 0x800
  · subst h1; rfl
  by_cases h2 : n = 0x806
  · subst h2; rfl
  by_cases h3 : n = 0x86dd
  · subst h3; rfl
  simp [h1, h2, h3]

theorem parseNext_eq (l : Layer) (h : laterFragment l = false) : parseNext l = follows l := by
  unfold follows
  rw [h]
  simp only [Bool.false_eq_true, if_false]
  cases l with
  | ethernet dst src p => exact linkProtocol_eq p
  | unicast a b c d p => exact linkProtocol_eq p
  | ipv4 a b c d e p g i j k => exact protocol_eq p
  | ipv6 bits a b => exact protocol_eq _
  | icmp t c s m =>
    by_cases ht : t = 3
    · subst ht; rfl
    · show (if t = 3 then some Kind.ipv4 else none) = _
      rw [if_neg ht]
      split <;> simp_all
  | _ => rfl

theorem reads_layers : ∀ (ls : List Layer) (k : Kind) (n : Nat), ls.length ≤ n → Chain k ls → (∀ l ∈ ls, laterFragment l = false) →
    Reads (layers n k) ls (ls.flatMap layerBytes)
  | [], _, _, _, h, _ => h.elim
  | l :: ls, k, n, hn, h, hf => by
    obtain ⟨h1, h2, h3⟩ := h
    obtain ⟨n, rfl⟩ : ∃ m, n = m + 1 := ⟨n - 1, by simp at hn; omega⟩
    subst h1
    rw [layers, List.flatMap_cons]
    refine Reads.bind (reads_layer l h2) ?_
    rw [parseNext_eq l (hf l (by simp))]
    cases e : follows l with
    | none =>
      rw [e] at h3
      simp only at h3
      subst h3
      exact reads_pure _
    | some k =>
      rw [e] at h3
      exact Reads.map (f := fun ls => l :: ls) (reads_layers ls k n (by simpa using hn) h3 fun x hx => hf x (by simp [hx]))

theorem layerBytes_pos (l : Layer) (g : LayerGood l) : 0 < (layerBytes l).length := by
  cases l with
  | ethernet dst src p => simp only [layerBytes, List.length_append, beBytes_length]; omega
  | _ => simp only [layerBytes, List.length_append, beBytes_length]; omega

theorem layers_length (ls : List Layer) (h : ∀ l ∈ ls, LayerGood l) : ls.length ≤ (ls.flatMap layerBytes).length := by
  induction ls with
  | nil => simp
  | cons l ls ih =>
    have := layerBytes_pos l (h l (by simp))
    have := ih fun x hx => h x (by simp [hx])
    rw [List.flatMap_cons, List.length_append, List.length_cons]
    omega

theorem chain_good : ∀ (ls : List Layer) (k : Kind), Chain k ls → ∀ l ∈ ls, LayerGood l
  | [], _, h => h.elim
  | l :: ls, k, h => by
    obtain ⟨_, h2, h3⟩ := h
    intro x hx
    rcases List.mem_cons.1 hx with rfl | hx
    · exact h2
    · cases e : follows l with
      | none =>
        rw [e] at h3
        simp only at h3
        subst h3
        simp at hx
      | some k =>
        rw [e] at h3
        exact chain_good ls k h3 x hx

/-- A packet in the file. -/
def packetBytes (p : Packet) : Bytes :=
  leBytes 4 p.epoch ++ (leBytes 4 p.fraction ++ (leBytes 4 (p.layers.flatMap layerBytes ++ p.data).length ++ (leBytes 4 p.wireLength ++ (p.layers.flatMap layerBytes ++ p.data))))

structure PacketGood (k : Kind) (p : Packet) : Prop where
  small : p.epoch < 2 ^ 32 ∧ p.fraction < 2 ^ 32 ∧ p.wireLength < 2 ^ 32 ∧ (p.layers.flatMap layerBytes ++ p.data).length < 2 ^ 32
  chain : Chain k p.layers
  first : ∀ l ∈ p.layers, laterFragment l = false

theorem reads_rest (b : Bytes) : ReadsAll Rpm.rest b b := by
  intro data s hs k hp
  rw [Rpm.rest, show (8 * (k + b.length) - 8 * k) / 8 = b.length by omega]
  exact reads_raw_or b _ rfl data s hs k _ hp (by omega)

theorem reads_packet (k : Kind) (p : Packet) (g : PacketGood k p) : Reads (packet k) p (packetBytes p) := by
  obtain ⟨⟨h1, h2, h3, h4⟩, hc, hf⟩ := g
  refine Reads.bind (reads_int_le 4 _ (by omega) (by omega)) ?_
  refine Reads.bind (reads_int_le 4 _ (by omega) (by omega)) ?_
  refine Reads.bind (reads_int_le 4 _ (by omega) (by omega)) ?_
  refine Reads.bind (reads_int_le 4 _ (by omega) (by omega)) ?_
  refine (Reads.map (v := (p.layers, p.data)) (f := fun x => Packet.mk p.epoch p.fraction p.wireLength x.1 x.2) (ReadsAll.within ?_ _ rfl))
  have hl := layers_length p.layers (chain_good _ _ hc)
  refine Reads.bind_all (reads_layers p.layers k _ (by rw [List.length_append]; omega) hc hf) ?_
  intro data s hs j hp
  show Rd.bind Rpm.rest _ s _ _ = _
  rw [Rd.bind, reads_rest p.data data s hs j hp]
  rfl

def pcapHead (h : Head) : Bytes :=
  [0xd4, 0xc3, 0xb2, 0xa1] ++ (leBytes 2 h.major ++ (leBytes 2 h.minor ++ (leBytes 4 (h.zone % (256 ^ 4 : Nat)).toNat ++ (leBytes 4 (h.sigfigs % (256 ^ 4 : Nat)).toNat ++
  (leBytes 4 h.snapLen ++ leBytes 4 h.linkType)))))

structure PcapGood (h : Head) : Prop where
  id : h.id = [0xd4, 0xc3, 0xb2, 0xa1]
  small : h.major < 65536 ∧ h.minor < 65536 ∧ h.snapLen < 2 ^ 32 ∧ h.linkType < 2 ^ 32
  zone : -2147483648 ≤ h.zone ∧ h.zone < 2147483648
  sigfigs : -2147483648 ≤ h.sigfigs ∧ h.sigfigs < 2147483648

theorem reads_pcap_head (h : Head) (g : PcapGood h) : Reads head h (pcapHead h) := by
  obtain ⟨h0, ⟨h1, h2, h3, h4⟩, h5, h6⟩ := g
  refine Reads.bind (reads_raw_n 4 [0xd4, 0xc3, 0xb2, 0xa1] rfl (by omega)) ?_
  refine Reads.bind (reads_int_le 2 _ (by omega) (by omega)) ?_
  refine Reads.bind (reads_int_le 2 _ (by omega) (by omega)) ?_
  refine Reads.bind (reads_signed_le 4 _ (by omega) (by norm_num; omega) (by norm_num; omega)) ?_
  refine Reads.bind (reads_signed_le 4 _ (by omega) (by norm_num; omega) (by norm_num; omega)) ?_
  refine Reads.bind (reads_int_le 4 _ (by omega) (by omega)) ?_
  refine (Reads.map (reads_int_le 4 _ (by omega) (by omega))).of_eq ?_ rfl
  rw [← h0]

/-- The layer packets start with: Ethernet, or Linux's captures of all devices. -/
def firstKind : Nat → Option Kind
  | 1 => some .ethernet
  | 113 => some .unicast
  | _ => none

/-- **C135** (partial): all packets of all captures are read: header, layers, options, and the data behind.  Later fragments are left out, and TCP headers whose options are
ended by option 0. -/
theorem C135_capture_partial (h : Head) (ps : List Packet) (k : Kind) (g : PcapGood h) (hk : firstKind h.linkType = some k) (hp : ∀ p ∈ ps, PacketGood k p)
    (n : Nat) (hn : ps.length < n) (s : InputStream) (hs : stringInputStream (pcapHead h ++ ps.flatMap packetBytes) = .ok s) :
    capture n s (8 * (pcapHead h ++ ps.flatMap packetBytes).length) 0 = .ok ((h, ps), 8 * (pcapHead h ++ ps.flatMap packetBytes).length) := by
  have hl : linkType h.linkType = some k := by
    rw [← hk]
    unfold linkType firstKind
    by_cases e1 : h.linkType = 1
    · rw [e1]; rfl
    by_cases e2 : h.linkType = 113
    · rw [e2]; rfl
    simp [e1, e2]
  have r : ReadsAll (capture n) (h, ps) (pcapHead h ++ ps.flatMap packetBytes) := by
    refine Reads.bind_all (reads_pcap_head h g) ?_
    rw [hl]
    have w := reads_while (packet k) packetBytes ps n hn fun p hm => ⟨reads_packet k p (hp p hm), by
      rw [packetBytes]
      intro e
      have := congrArg List.length e
      rw [List.length_append, leBytes_length, List.length_nil] at this
      omega⟩
    intro data s hs j hp
    show Rd.bind (Rd.whileNotEof (packet k) n) _ s _ _ = _
    rw [Rd.bind, w data s hs j hp]
    rfl
  have := r _ s hs 0 (List.prefix_refl _)
  rw [Nat.zero_add] at this
  exact this

/-- **C135**: files of other links are refused. -/
theorem C135_unknown (h : Head) (g : PcapGood h) (n : Nat) (hk : firstKind h.linkType = none) : Fails (capture n) .parser (pcapHead h) := by
  have hl : linkType h.linkType = none := by
    unfold linkType
    unfold firstKind at hk
    rw [if_neg (by rintro e; rw [e] at hk; simp at hk), if_neg (by rintro e; rw [e] at hk; simp at hk)]
  have := Reads.fails (f := fun h : Head => (match linkType h.linkType with
    | none => Rd.fail .parser
    | some k => do let ps ← Rd.whileNotEof (packet k) n; pure (h, ps) : Rd (Head × List Packet))) (xs := pcapHead h) (ys := []) (e := .parser) (reads_pcap_head h g) (by
      rw [hl]
      exact fails_fail _)
  rw [List.append_nil] at this
  exact this

/-- Violation: a later fragment is taken to start with the header of its protocol. -/
theorem C135_fragment (service : List Nat) (len id : Nat) (flags : List Nat) (ttl sum : Nat) (src dst opts : Bytes) (hf : 256 * flags.getD 3 0 + flags.getD 4 0 ≠ 0) :
    follows (.ipv4 service len id flags ttl 6 sum src dst opts) = none ∧ parseNext (.ipv4 service len id flags ttl 6 sum src dst opts) = some .tcp := by
  refine ⟨?_, rfl⟩
  rw [follows, if_pos]
  exact decide_eq_true hf

/-- Violation: if the options of TCP end with option 0 and another 0 fills up the header, the header lasts to the end of the packet, and no data are left. -/
theorem C135_end_of_options (data : Bytes) (s : InputStream) (hs : stringInputStream data = .ok s) (k stop n size : Nat) (hp : [0, 0] <+: data.drop k) (h0 : 0 < size)
    (h : 8 * (k + 2) ≤ stop) : options (n + 1) size s stop (8 * k) = .ok ([], stop) := by
  have r1 := reads_byte 0 .big (by decide) data s hs k stop (prefix_left (xs := [0]) (ys := [0]) hp) (by simp; omega)
  have r2 := reads_byte 0 .big (by decide) data s hs (k + 1) stop (drop_prefix (xs := [0]) (ys := [0]) hp) (by simp; omega)
  rw [options, if_neg (by omega)]
  show Rd.bind (Rd.int 1 .big) _ s stop (8 * k) = _
  rw [Rd.bind, r1]
  show Rd.bind (Rd.int 1 .big) _ s stop (8 * (k + 1)) = _
  rw [Rd.bind, r2]
  rfl

/-- When a packet was captured, in microseconds: the file has seconds and microseconds. -/
def capturedAt (p : Packet) : Nat := p.epoch * 1000000 + p.fraction

/-- Violation: the time of a packet is told wrong unless it is a full second. -/
theorem C135_timestamp (p : Packet) : timestamp p = capturedAt p ↔ p.fraction = 0 := by
  rw [timestamp, capturedAt]
  constructor
  · intro h
    split at h
    · omega
    · split at h
      · omega
      · split at h <;> omega
  · intro h
    rw [h]
    rfl

/-- A frame with a TCP header and options. -/
example : Chain .ethernet [.ethernet [1, 2, 3, 4, 5, 6] [1, 2, 3, 4, 5, 7] 0x800, .ipv4 [4, 5, 0, 0, 0, 0, 0] 48 1 [0, 1, 0, 0, 0] 64 6 0 [10, 0, 0, 1] [10, 0, 0, 2] [],
    .tcp 80 4000 1 2 [28, 0, 0, 0, 0, 1, 0, 0, 1, 0] 500 0 0 [.maxSegment 1460, .nop, .windowScale 7]] := by
  simp [Chain, layerKind, LayerGood, follows, laterFragment, etherKind, ipKind, Fit, ipv4Service, ipv4Flags, tcpBits, OptGood, optBytes, beBytes_length]

end Hachoir.Props

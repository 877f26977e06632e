import Verif.Formats.Rpm

/-!
# Captured network packets (`parser/network/tcpdump.py`)

Names, descriptions and the text of addresses (`Formats/Addresses.lean`) are left out.  A layer that does not fit into the packet is cut by the autofix of field sets;
here it is read as it is, as are IPv4 headers told to be shorter than 20 bytes and TCP options told to have 1 byte.
-/

namespace Hachoir.Formats.Tcpdump
open Hachoir Hachoir.Stream Hachoir.Field Hachoir.Formats

/-- `TCP_Option`, tcpdump.py:68-106. -/
inductive Opt where
  | nop
  | maxSegment (v : Nat)
  | windowScale (v : Nat)
  | timestamp (val ecr : Nat)
  | other (code : Nat) (data : Bytes)
  deriving DecidableEq, Repr

/-- The fields behind `length`, tcpdump.py:96-106. -/
def optBody (code length : Nat) : Rd Opt :=
  if code = 2 then do
    let v ← Rd.int 2 .big
    pure (.maxSegment v)
  else if code = 3 then do
    let v ← Rd.int 1 .big
    pure (.windowScale v)
  else if code = 8 then do
    let a ← Rd.int 4 .big
    let b ← Rd.int 4 .big
    pure (.timestamp a b)
  else do
    let d ← Cab.rawOr (length - 2)
    pure (.other code d)

/-- The layers, see `Layer` below, of which one follows the other. -/
inductive Kind where
  | ethernet | unicast | arp | ipv4 | ipv6 | tcp | udp | icmp | icmpv6
  deriving DecidableEq, Repr

/-- The layers of a packet, tcpdump.py:38-434: the numbers of the fields in their order; `bits` are those of fields of some bits. -/
inductive Layer where
  /-- tcpdump.py:424-430. -/
  | ethernet (dst src : Bytes) (protocol : Nat)
  /-- tcpdump.py:408-421: 8 bytes of source, whatever `addr_length` says. -/
  | unicast (packetType addrType addrLength : Nat) (source : Bytes) (protocol : Nat)
  /-- tcpdump.py:45-54. -/
  | arp (hwType protoType hwSize protoSize opcode : Nat) (srcMac srcIp dstMac dstIp : Bytes)
  /-- tcpdump.py:341-368. `service`: version, header size, precedence, delay, throughput, reliability, reserved; `flags`: reserved, `df`, `more_frag`, low and high part of
  the fragment's offset. -/
  | ipv4 (service : List Nat) (length id : Nat) (flags : List Nat) (ttl protocol checksum : Nat) (src dst options : Bytes)
  /-- tcpdump.py:378-386: version, traffic, flow, length, protocol, hop limit. -/
  | ipv6 (bits : List Nat) (src dst : Bytes)
  /-- tcpdump.py:130-156: `bits` are header length, reserved, and 8 flags. -/
  | tcp (src dst seq ack : Nat) (bits : List Nat) (window checksum urgent : Nat) (options : List Opt)
  /-- tcpdump.py:208-212. -/
  | udp (src dst length checksum : Nat)
  /-- tcpdump.py:246-265: the last two are identifier and number of pings, or the empty bytes and the MTU of rejections. -/
  | icmp (type code checksum : Nat) (more : List Nat)
  /-- tcpdump.py:289-296. -/
  | icmpv6 (type code checksum : Nat) (more : List Nat)
  deriving DecidableEq, Repr

/-- The rest of the packet is lost in this layer. -/
def toEnd {α : Type} (v : α) : Rd α := fun _ stop _ => .ok (v, stop)

/-- The options of TCP, tcpdump.py:152-156; `size` is in bits, `rounds` bounds their number.  An option of size 0 is a field set of size 0: the TCP layer gets all the room
there is up to the end of the packet (/repo/hachoir/field/generic_field_set.py:184-190, 203-213). -/
def options : Nat → Nat → Rd (List Opt)
  | 0, _ => Rd.fail .endless
  | rounds + 1, size =>
    if size = 0 then pure []
    else do
      let code ← Rd.int 1 .big
      if code = 1 then do
        let os ← options rounds (size - 8)
        pure (.nop :: os)
      else do
        let length ← Rd.int 1 .big
        if length = 0 then toEnd []
        else do
          let o ← Rd.within (length - 2) (optBody code length)
          let os ← options rounds (size - 8 * length)
          pure (o :: os)

/-- `createFields` of every layer. -/
def layer : Kind → Rd Layer
  | .ethernet => do
    let dst ← Rd.raw 6
    let src ← Rd.raw 6
    let protocol ← Rd.int 2 .big
    pure (.ethernet dst src protocol)
  | .unicast => do
    let packetType ← Rd.int 2 .big
    let addrType ← Rd.int 2 .big
    let addrLength ← Rd.int 2 .big
    let source ← Rd.raw 8
    let protocol ← Rd.int 2 .big
    pure (.unicast packetType addrType addrLength source protocol)
  | .arp => do
    let hwType ← Rd.int 2 .big
    let protoType ← Rd.int 2 .big
    let hwSize ← Rd.int 1 .big
    let protoSize ← Rd.int 1 .big
    let opcode ← Rd.int 2 .big
    let srcMac ← Rd.raw 6
    let srcIp ← Rd.raw 4
    let dstMac ← Rd.raw 6
    let dstIp ← Rd.raw 4
    pure (.arp hwType protoType hwSize protoSize opcode srcMac srcIp dstMac dstIp)
  | .ipv4 => do
    let service ← Rd.bits .big [4, 4, 3, 1, 1, 1, 2]
    let length ← Rd.int 2 .big
    let id ← Rd.int 2 .big
    let flags ← Rd.bits .big [1, 1, 1, 5, 8]
    let ttl ← Rd.int 1 .big
    let protocol ← Rd.int 1 .big
    let checksum ← Rd.int 2 .big
    let src ← Rd.raw 4
    let dst ← Rd.raw 4
    let opts ← Cab.rawOr (4 * service.getD 1 0 - 20)
    pure (.ipv4 service length id flags ttl protocol checksum src dst opts)
  | .ipv6 => do
    let bits ← Rd.bits .big [4, 8, 20, 16, 8, 8]
    let src ← Rd.raw 16
    let dst ← Rd.raw 16
    pure (.ipv6 bits src dst)
  | .tcp => do
    let src ← Rd.int 2 .big
    let dst ← Rd.int 2 .big
    let seq ← Rd.int 4 .big
    let ack ← Rd.int 4 .big
    let bits ← Rd.bits .big [6, 2, 1, 1, 1, 1, 1, 1, 1, 1]
    let window ← Rd.int 2 .big
    let checksum ← Rd.int 2 .big
    let urgent ← Rd.int 2 .big
    let os ← options 64 (8 * bits.getD 0 0 - 160)
    pure (.tcp src dst seq ack bits window checksum urgent os)
  | .udp => do
    let src ← Rd.int 2 .big
    let dst ← Rd.int 2 .big
    let length ← Rd.int 2 .big
    let checksum ← Rd.int 2 .big
    pure (.udp src dst length checksum)
  | .icmp => do
    let type ← Rd.int 1 .big
    let code ← Rd.int 1 .big
    let checksum ← Rd.int 2 .big
    let more ← Rd.times (Rd.int 2 .big) (if type = 8 ∨ type = 0 ∨ type = 3 then 2 else 0)
    pure (.icmp type code checksum more)
  | .icmpv6 => do
    let type ← Rd.int 1 .big
    let code ← Rd.int 1 .big
    let checksum ← Rd.int 2 .big
    let more ← Rd.times (Rd.int 2 .big) (if type = 128 ∨ type = 129 then 2 else 0)
    pure (.icmpv6 type code checksum more)

/-- `PROTOCOL_INFO`, tcpdump.py:306-312. -/
def protocol (n : Nat) : Option Kind :=
  if n = 1 then some .icmp else if n = 6 then some .tcp else if n = 17 then some .udp else if n = 58 then some .icmpv6 else none

/-- `PROTO_INFO`, tcpdump.py:393-397. -/
def linkProtocol (n : Nat) : Option Kind :=
  if n = 0x800 then some .ipv4 else if n = 0x806 then some .arp else if n = 0x86dd then some .ipv6 else none

/-- `parseNext`: tcpdump.py:34-35, 158-159, 274-278, 315-322, 400-405. -/
def parseNext : Layer → Option Kind
  | .ethernet _ _ p => linkProtocol p
  | .unicast _ _ _ _ p => linkProtocol p
  | .ipv4 _ _ _ _ _ p _ _ _ _ => protocol p
  | .ipv6 bits _ _ => protocol (bits.getD 4 0)
  | .icmp type _ _ _ => if type = 3 then some .ipv4 else none
  | _ => none

/-- The layers of a packet, tcpdump.py:453-456; `rounds` bounds their number. -/
def layers : Nat → Kind → Rd (List Layer)
  | 0, _ => Rd.fail .endless
  | rounds + 1, k => do
    let l ← layer k
    match parseNext l with
    | none => pure [l]
    | some k => do
      let ls ← layers rounds k
      pure (l :: ls)

/-- `Packet`, tcpdump.py:437-461. -/
structure Packet where
  epoch : Nat
  fraction : Nat
  wireLength : Nat
  layers : List Layer
  data : Bytes
  deriving DecidableEq, Repr

/-- What is behind the 16 bytes of a packet's header. -/
def payload (caplen : Nat) (first : Kind) : Rd (List Layer × Bytes) := do
  let ls ← layers (caplen + 1) first
  let d ← Rpm.rest
  pure (ls, d)

def packet (first : Kind) : Rd Packet := do
  let epoch ← Rd.int 4 .little
  let fraction ← Rd.int 4 .little
  let caplen ← Rd.int 4 .little
  let wireLength ← Rd.int 4 .little
  let p ← Rd.within caplen (payload caplen first)
  pure ⟨epoch, fraction, wireLength, p.1, p.2⟩

/-- The first 24 bytes, tcpdump.py:511-517. -/
structure Head where
  id : Bytes
  major : Nat
  minor : Nat
  zone : Int
  sigfigs : Int
  snapLen : Nat
  linkType : Nat
  deriving DecidableEq, Repr

/-- `LINK_TYPE`, tcpdump.py:497-500. -/
def linkType (n : Nat) : Option Kind := if n = 1 then some .ethernet else if n = 113 then some .unicast else none

def head : Rd Head := do
  let id ← Rd.raw 4
  let major ← Rd.int 2 .little
  let minor ← Rd.int 2 .little
  let zone ← Rd.signed 4 .little
  let sigfigs ← Rd.signed 4 .little
  let snapLen ← Rd.int 4 .little
  let linkType ← Rd.int 4 .little
  pure ⟨id, major, minor, zone, sigfigs, snapLen, linkType⟩

/-- `TcpdumpFile.createFields`, tcpdump.py:510-523; `rounds` bounds the number of packets. -/
def capture (rounds : Nat) : Rd (Head × List Packet) := do
  let h ← head
  match linkType h.linkType with
  | none => Rd.fail .parser
  | some k => do
    let ps ← Rd.whileNotEof (packet k) rounds
    pure (h, ps)

/-- `getTimestamp`, tcpdump.py:463-466: microseconds since 1970; the quotient by 100 is rounded to the nearest microsecond, ties to even. -/
def timestamp (p : Packet) : Nat :=
  let q := p.fraction / 100
  let r := p.fraction % 100
  p.epoch * 1000000 + (if r < 50 then q else if 50 < r then q + 1 else if q % 2 = 0 then q else q + 1)

end Hachoir.Formats.Tcpdump

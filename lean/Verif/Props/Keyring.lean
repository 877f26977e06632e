import Verif.Formats.Keyring
import Verif.Props.Packed
import Verif.Props.Xcf

/-!
# C172: Gnome keyrings
-/

namespace Hachoir.Props
open Hachoir Hachoir.Stream Hachoir.Field Hachoir.Formats Hachoir.Formats.Keyring Spec _root_.Props

/-! ### Specification -/

/-- A text: a missing one has the size -1. -/
def keyTextBytes : Option Bytes → Bytes
  | none => [255, 255, 255, 255]
  | some b => beBytes 4 b.length ++ b

/-- Texts have up to 65535 bytes; an empty one is written as a missing one. -/
def KeyTextFits (t : Option Bytes) : Prop := ∀ b ∈ t, b ≠ [] ∧ b.length ≤ 65535

def keyValueBytes : Keyring.Value → Bytes
  | .text t => beBytes 4 0 ++ keyTextBytes t
  | .number n => beBytes 4 1 ++ beBytes 4 n

def KeyValueFits : Keyring.Value → Prop
  | .text t => KeyTextFits t
  | .number n => n < 2 ^ 32

def attrBytes (a : Keyring.Attribute) : Bytes := keyTextBytes a.name ++ keyValueBytes a.value

def AttrFits (a : Keyring.Attribute) : Prop := KeyTextFits a.name ∧ KeyValueFits a.value

def aclBytes (a : Acl) : Bytes := beBytes 4 a.types ++ (keyTextBytes a.display ++ (keyTextBytes a.path ++ (keyTextBytes a.reserved ++ beBytes 4 a.reserved2)))

def AclFits (a : Acl) : Prop := a.types < 2 ^ 32 ∧ KeyTextFits a.display ∧ KeyTextFits a.path ∧ KeyTextFits a.reserved ∧ a.reserved2 < 2 ^ 32

def itemBytes (i : Item) : Bytes := beBytes 4 i.id ++ (beBytes 4 i.type ++ (beBytes 4 i.attributes.length ++ i.attributes.flatMap attrBytes))

def ItemFits (i : Item) : Prop := i.id < 2 ^ 32 ∧ i.type < 2 ^ 32 ∧ i.attributes.length < 2 ^ 32 ∧ ∀ a ∈ i.attributes, AttrFits a

def secretBytes (s : Secret) : Bytes :=
  keyTextBytes s.display ++ (keyTextBytes s.secret ++ (beBytes 8 s.mtime ++ (beBytes 8 s.ctime ++ (keyTextBytes s.reserved ++ (s.numbers.flatMap (beBytes 4) ++
    (beBytes 4 s.attributes.length ++ (s.attributes.flatMap attrBytes ++ (beBytes 4 s.acls.length ++ s.acls.flatMap aclBytes))))))))

def SecretFits (s : Secret) : Prop :=
  KeyTextFits s.display ∧ KeyTextFits s.secret ∧ s.mtime < 2 ^ 64 ∧ s.ctime < 2 ^ 64 ∧ KeyTextFits s.reserved ∧ (s.numbers.length = 4 ∧ ∀ n ∈ s.numbers, n < 2 ^ 32) ∧
    (s.attributes.length < 2 ^ 32 ∧ ∀ a ∈ s.attributes, AttrFits a) ∧ (s.acls.length < 2 ^ 32 ∧ ∀ a ∈ s.acls, AclFits a)

/-- "GnomeKeyring\n\r\0\n" -/
def ringMagic : Bytes := [71, 110, 111, 109, 101, 75, 101, 121, 114, 105, 110, 103, 10, 13, 0, 10]

/-- A keyring: its flags are one number. -/
def ringBytes (r : Ring) (flags : Nat) : Bytes :=
  ringMagic ++ (beBytes 1 r.major ++ (beBytes 1 r.minor ++ (beBytes 1 r.crypto ++ (beBytes 1 r.hash ++ (keyTextBytes r.name ++ (beBytes 8 r.mtime ++ (beBytes 8 r.ctime ++ (beBytes 4 flags ++
    (beBytes 4 r.lockTimeout ++ (beBytes 4 r.iterations ++ (r.salt ++ (r.reserved ++ ((beBytes 4 r.items.length ++ r.items.flatMap itemBytes) ++ (beBytes 4 r.encrypted.length ++ r.encrypted))))))))))))))

def RingFits (r : Ring) : Prop :=
  (r.major < 256 ∧ r.minor < 256 ∧ r.crypto < 256 ∧ r.hash < 256) ∧ KeyTextFits r.name ∧ (r.mtime < 2 ^ 64 ∧ r.ctime < 2 ^ 64) ∧ (r.lockTimeout < 2 ^ 32 ∧ r.iterations < 2 ^ 32) ∧
    (r.salt.length = 8 ∧ r.reserved.length = 16) ∧ (r.items.length < 2 ^ 32 ∧ ∀ i ∈ r.items, ItemFits i) ∧ (r.encrypted ≠ [] ∧ r.encrypted.length < 2 ^ 32)

/-! ### Texts, attributes and items -/

theorem reads_key_text (t : Option Bytes) (h : KeyTextFits t) : Reads keyText t (keyTextBytes t) := by
  cases t with
  | none =>
    have := Reads.bind (f := keyTextOf) (ys := []) (reads_gimp_int 0xffffffff (by decide)) (by rw [keyTextOf, if_pos rfl]; exact reads_pure (none : Option Bytes))
    exact this.of_eq rfl (by decide +kernel)
  | some b =>
    obtain ⟨h1, h2⟩ := h b rfl
    have h3 := List.length_pos_of_ne_nil h1
    refine Reads.bind (f := keyTextOf) (reads_int_be 4 b.length (by decide) (by omega)) ?_
    rw [keyTextOf, if_neg (by omega)]
    exact Reads.map (f := some) (reads_fixed .big .utf8 (by decide) b.length b rfl ⟨h3, h2⟩)

/-- **C172**: a missing text has the value "". -/
theorem C172_missing : Reads keyText none [255, 255, 255, 255] ∧ keyValue none = [] := ⟨reads_key_text none (by simp [KeyTextFits]), rfl⟩

/-- **C172** (disagreement): an empty text, of size 0, is an error, and so is one of more than 65535 bytes. -/
theorem C172_empty (n : Nat) (h : n = 0 ∨ 65535 < n) (hn : n < 0xffffffff) : Fails keyText .field (beBytes 4 n) := by
  have e : Fails (keyTextOf n) .field [] := by
    intro data s hs k stop hp hst
    rw [keyTextOf, if_neg (by omega)]
    show Rd.bind (Rd.text .big .fixed .utf8 (some (n : Int))) _ s stop (8 * k) = _
    rw [Rd.bind, Rd.text, C50_fixed_range s .big _ (n : Int) (by omega) .utf8]
  have := Reads.fails (f := keyTextOf) (reads_int_be 4 n (by decide) (by omega)) e
  rwa [List.append_nil] at this

theorem reads_key_value (v : Keyring.Value) (h : KeyValueFits v) (name : Option Bytes) :
    Reads (Rd.int 4 .big >>= fun type => valueOf type >>= fun v => pure (⟨name, v⟩ : Keyring.Attribute)) ⟨name, v⟩ (keyValueBytes v) := by
  cases v with
  | text t =>
    refine Reads.bind (reads_int_be 4 0 (by decide) (by decide)) (Reads.map (f := fun v => (⟨name, v⟩ : Keyring.Attribute)) ?_)
    exact Reads.map (f := Keyring.Value.text) (reads_key_text t h)
  | number n =>
    refine Reads.bind (reads_int_be 4 1 (by decide) (by decide)) (Reads.map (f := fun v => (⟨name, v⟩ : Keyring.Attribute)) ?_)
    exact Reads.map (f := Keyring.Value.number) (reads_gimp_int n h)

theorem reads_attr (a : Keyring.Attribute) (h : AttrFits a) : Reads attr a (attrBytes a) :=
  Reads.bind (reads_key_text a.name h.1) (reads_key_value a.value h.2 a.name)

/-- **C172**: an attribute of another type is an error. -/
theorem C172_type (name : Option Bytes) (h : KeyTextFits name) (type : Nat) (ht : 1 < type) (h32 : type < 2 ^ 32) : Fails attr .type (keyTextBytes name ++ (beBytes 4 type ++ [])) := by
  refine Reads.fails (reads_key_text name h) (Reads.fails (reads_gimp_int type h32) ?_)
  intro data s hs k stop hp hst
  rw [valueOf, if_neg (by omega), if_neg (by omega)]
  rfl

theorem reads_acl (a : Acl) (h : AclFits a) : Reads acl a (aclBytes a) :=
  Reads.bind (reads_gimp_int a.types h.1) (Reads.bind (reads_key_text a.display h.2.1) (Reads.bind (reads_key_text a.path h.2.2.1) (Reads.bind (reads_key_text a.reserved h.2.2.2.1)
    (Reads.map (f := fun n => (⟨a.types, a.display, a.path, a.reserved, n⟩ : Acl)) (reads_gimp_int a.reserved2 h.2.2.2.2)))))

theorem reads_list {α : Type} (r : Rd α) (enc : α → Bytes) (l : List α) (h : ∀ x ∈ l, Reads r x (enc x)) : Reads (Rd.times r l.length) l (l.flatMap enc) :=
  (reads_times_map r id enc l h).of_eq (List.map_id l) rfl

theorem reads_key_item (i : Item) (h : ItemFits i) : Reads item i (itemBytes i) :=
  Reads.bind (reads_gimp_int i.id h.1) (Reads.bind (reads_gimp_int i.type h.2.1) (Reads.bind (reads_gimp_int i.attributes.length h.2.2.1)
    (Reads.map (f := fun l => (⟨i.id, i.type, l⟩ : Item)) (reads_list attr attrBytes i.attributes fun a ha => reads_attr a (h.2.2.2 a ha)))))

theorem reads_secret (s : Secret) (h : SecretFits s) : Reads secret s (secretBytes s) := by
  obtain ⟨h1, h2, h3, h4, h5, ⟨h6, h7⟩, ⟨h8, h9⟩, h10, h11⟩ := h
  have hn : Reads (Rd.times (Rd.int 4 .big) 4) s.numbers (s.numbers.flatMap (beBytes 4)) := by
    have := reads_list (Rd.int 4 .big) (beBytes 4) s.numbers fun n hn => reads_gimp_int n (h7 n hn)
    rwa [h6] at this
  exact Reads.bind (reads_key_text s.display h1) (Reads.bind (reads_key_text s.secret h2) (Reads.bind (reads_int_be 8 s.mtime (by decide) h3) (Reads.bind (reads_int_be 8 s.ctime (by decide) h4)
    (Reads.bind (reads_key_text s.reserved h5) (Reads.bind hn (Reads.bind (reads_gimp_int s.attributes.length h8)
      (Reads.bind (reads_list attr attrBytes s.attributes fun a ha => reads_attr a (h9 a ha)) (Reads.bind (reads_gimp_int s.acls.length h10)
        (Reads.map (f := fun l => (⟨s.display, s.secret, s.mtime, s.ctime, s.reserved, s.numbers, s.attributes, l⟩ : Secret))
          (reads_list acl aclBytes s.acls fun a ha => reads_acl a (h11 a ha)))))))))))

/-! ### Keyrings -/

/-- **C172**: a keyring is read as it was written; of its 32 flags the first is shown as `lock_on_idle`. -/
theorem C172_ring (r : Ring) (h : RingFits r) (hf : r.lockOnIdle < 2 ∧ r.flags < 2 ^ 31) : Reads ring r (ringBytes r (2 ^ 31 * r.lockOnIdle + r.flags)) := by
  obtain ⟨⟨a1, a2, a3, a4⟩, hn, ⟨b1, b2⟩, ⟨c1, c2⟩, ⟨d1, d2⟩, ⟨e1, e2⟩, f1, f2⟩ := h
  have hb : Reads (Rd.bits .big [1, 31]) [r.lockOnIdle, r.flags] (beBytes 4 (2 ^ 31 * r.lockOnIdle + r.flags)) := by
    refine (reads_packed_be 4 [1, 31] [r.lockOnIdle, r.flags] (by decide) rfl (by simp [Fit]; omega)).of_eq rfl ?_
    congr 1
    simp [joinBE]
    omega
  have hi : Reads items r.items (beBytes 4 r.items.length ++ r.items.flatMap itemBytes) :=
    Reads.bind (reads_gimp_int r.items.length e1) (reads_list item itemBytes r.items fun i hi => reads_key_item i (e2 i hi))
  exact Reads.bind (reads_fixed .big .eightBit (by decide) 16 ringMagic rfl (by decide)) (Reads.bind (reads_int_be 1 r.major (by decide) a1) (Reads.bind (reads_int_be 1 r.minor (by decide) a2)
    (Reads.bind (reads_int_be 1 r.crypto (by decide) a3) (Reads.bind (reads_int_be 1 r.hash (by decide) a4) (Reads.bind (reads_key_text r.name hn) (Reads.bind (reads_int_be 8 r.mtime (by decide) b1)
      (Reads.bind (reads_int_be 8 r.ctime (by decide) b2) (Reads.bind hb (Reads.bind (reads_gimp_int r.lockTimeout c1) (Reads.bind (reads_gimp_int r.iterations c2)
        (Reads.bind (reads_raw_n 8 r.salt d1 (by decide)) (Reads.bind (reads_raw_n 16 r.reserved d2 (by decide)) (Reads.bind hi (Reads.bind (reads_gimp_int r.encrypted.length f2)
          (Reads.map (f := fun e => (⟨r.major, r.minor, r.crypto, r.hash, r.name, r.mtime, r.ctime, r.lockOnIdle, r.flags, r.lockTimeout, r.iterations, r.salt, r.reserved, r.items, e⟩ : Ring))
            (reads_raw_n r.encrypted.length r.encrypted rfl (List.length_pos_of_ne_nil f1)))))))))))))))))

/-- **C172** (disagreement): the keyring locks itself if the flag 1 is set, the last bit of the flags; then `lock_on_idle` is shown as 0, for every keyring. -/
theorem C172_lock (r : Ring) (h : RingFits r) (hr : r.lockOnIdle = 0 ∧ r.flags = 1) : Reads ring r (ringBytes r 1) := by
  have := C172_ring r h (by omega)
  rwa [hr.1, hr.2] at this

/-! ### Secrets -/

theorem at_secrets (data rest : Bytes) (hr : rest.length < 77) : ∀ (l : List Secret) (n a : Nat), l.length < n → (∀ s ∈ l, SecretFits s ∧ 77 ≤ (secretBytes s).length) →
    l.flatMap secretBytes ++ rest = data.drop a → a ≤ data.length → AtPlace data (secrets n) l a (a + (l.flatMap secretBytes).length)
  | [], n + 1, a, _, _, hd, ha => by
    intro s hs
    have hl := congrArg List.length hd
    simp only [List.flatMap_nil, List.nil_append, List.length_drop] at hl
    show (if (8 * data.length - 8 * a) / 8 < 77 then Rd.pure [] else _) s _ (8 * a) = _
    rw [if_pos (by omega)]
    rfl
  | x :: l, n + 1, a, hn, h, hd, ha => by
    obtain ⟨h1, h2⟩ := h x (List.mem_cons_self ..)
    rw [List.flatMap_cons, List.append_assoc] at hd
    have hl := congrArg List.length hd
    rw [List.length_append, List.length_drop] at hl
    have hp : secretBytes x ++ (l.flatMap secretBytes ++ rest) <+: data.drop a := by rw [hd]
    have h3 := (reads_secret x h1).at (prefix_left (xs := secretBytes x) (ys := l.flatMap secretBytes ++ rest) hp) ha
    have hd' : l.flatMap secretBytes ++ rest = data.drop (a + (secretBytes x).length) := by
      rw [← List.drop_drop, ← hd, List.drop_left]
    have ih := at_secrets data rest hr l n (a + (secretBytes x).length) (by simpa using hn) (fun s hs => h s (List.mem_cons_of_mem _ hs)) hd' (by omega)
    intro s hs
    show (if (8 * data.length - 8 * a) / 8 < 77 then Rd.pure [] else Rd.bind secret fun s => Rd.bind (secrets n) fun l => Rd.pure (s :: l)) s _ (8 * a) = _
    rw [if_neg (by omega), Rd.bind, h3 s hs]
    show Rd.bind (secrets n) (fun l => Rd.pure (x :: l)) s _ _ = _
    rw [Rd.bind, ih s hs, List.flatMap_cons, List.length_append, ← Nat.add_assoc]
    rfl

theorem secrets_length (l : List Secret) (h : ∀ s ∈ l, SecretFits s ∧ 77 ≤ (secretBytes s).length) : l.length ≤ (l.flatMap secretBytes).length := by
  induction l with
  | nil => simp
  | cons x l ih =>
    have h1 := (h x (List.mem_cons_self ..)).2
    have h2 := ih fun s hs => h s (List.mem_cons_of_mem _ hs)
    rw [List.flatMap_cons, List.length_append, List.length_cons]
    omega

/-- **C172**: the deciphered data: the digest, and the secrets if each has at least 77 bytes, with padding up to 16 bytes. -/
theorem C172_secrets (md5 : Bytes) (hm : md5.length = 16) (l : List Secret) (h : ∀ s ∈ l, SecretFits s ∧ 77 ≤ (secretBytes s).length) (pad : Bytes) (hp : pad.length < 16)
    (ha : (md5 ++ (l.flatMap secretBytes ++ pad)).length % 16 = 0) (fuel : Nat) (hf : (md5 ++ (l.flatMap secretBytes ++ pad)).length < fuel) :
    AtPlace (md5 ++ (l.flatMap secretBytes ++ pad)) (Keyring.encrypted fuel) (md5, l) 0 (md5 ++ (l.flatMap secretBytes ++ pad)).length := by
  obtain ⟨data, hd⟩ : ∃ d, d = md5 ++ (l.flatMap secretBytes ++ pad) := ⟨_, rfl⟩
  rw [← hd] at ha hf ⊢
  have hl : data.length = 16 + ((l.flatMap secretBytes).length + pad.length) := by rw [hd]; simp [hm]
  have hc := secrets_length l h
  have h1 : AtPlace data (Rd.raw 16) md5 0 16 := by
    have := (reads_raw_n 16 md5 hm (by decide)).at (data := data) (a := 0) ⟨_, by rw [hd]; rfl⟩ (Nat.zero_le _)
    rwa [hm] at this
  have hd16 : l.flatMap secretBytes ++ pad = data.drop 16 := by
    rw [hd, ← hm, List.drop_left]
  have h2 := at_secrets data pad (by omega) l fuel 16 (by omega) h hd16 (by omega)
  have h3 : AtPlace data align () (16 + (l.flatMap secretBytes).length) data.length := by
    intro s hs
    show alignment ((16 - 8 * (16 + (l.flatMap secretBytes).length) / 8 % 16) % 16) s _ _ = _
    rw [show (16 - 8 * (16 + (l.flatMap secretBytes).length) / 8 % 16) % 16 = pad.length by omega]
    by_cases h0 : pad.length = 0
    · rw [alignment, if_pos h0, hl, h0]
      rfl
    · rw [alignment, if_neg h0]
      have hd2 : pad <+: data.drop (16 + (l.flatMap secretBytes).length) := by
        rw [← List.drop_drop, ← hd16, List.drop_left]
      have h4 := (reads_raw_n pad.length pad rfl (by omega)).at hd2 (by omega)
      have h5 : AtPlace data (Rd.raw pad.length >>= fun _ => pure ()) () (16 + (l.flatMap secretBytes).length) data.length := by
        rw [hl, ← Nat.add_assoc]
        exact AtPlace.map (f := fun _ => ()) h4
      exact h5 s hs
  exact AtPlace.bind h1 (AtPlace.bind h2 (AtPlace.map (f := fun _ => (md5, l)) h3))

/-- **C172** (disagreement): a last secret that has, with the padding, less than 77 bytes is not read. -/
theorem C172_small (md5 : Bytes) (hm : md5.length = 16) (l : List Secret) (h : ∀ s ∈ l, SecretFits s ∧ 77 ≤ (secretBytes s).length) (x : Secret) (pad : Bytes) (hp : (secretBytes x ++ pad).length < 77)
    (fuel : Nat) (hf : l.length < fuel) :
    AtPlace (md5 ++ (l.flatMap secretBytes ++ (secretBytes x ++ pad))) (secrets fuel) l 16 (16 + (l.flatMap secretBytes).length) :=
  at_secrets _ (secretBytes x ++ pad) hp l fuel 16 hf h (by rw [← hm, List.drop_left]) (by rw [List.length_append]; omega)

/-! ### Examples -/

/-- A secret without anything has 52 bytes. -/
def bareSecret : Secret := ⟨none, none, 0, 0, none, [0, 0, 0, 0], [], []⟩

def fullSecret : Secret := ⟨some [119, 101, 98], some [120, 121, 122], 1200000000, 1200000000, none, [0, 0, 0, 0], [⟨some [117, 114, 108], .text (some [97])⟩, ⟨some [112], .number 80⟩], [⟨7, some [102], some [47], none, 0⟩]⟩

theorem full_fits : SecretFits fullSecret ∧ 77 ≤ (secretBytes fullSecret).length := by
  refine ⟨?_, by decide +kernel⟩
  simp [SecretFits, fullSecret, KeyTextFits, AttrFits, AclFits, KeyValueFits]

example : AtPlace (List.replicate 16 9 ++ ([fullSecret].flatMap secretBytes ++ List.replicate 3 0)) (Keyring.encrypted 1000) (List.replicate 16 9, [fullSecret]) 0
    (List.replicate 16 9 ++ ([fullSecret].flatMap secretBytes ++ List.replicate 3 0)).length :=
  C172_secrets _ rfl [fullSecret] (by intro s hs; rw [List.mem_singleton.1 hs]; exact full_fits) _ (by decide) (by decide +kernel) 1000 (by decide +kernel)

example : AtPlace (List.replicate 16 9 ++ ([fullSecret].flatMap secretBytes ++ (secretBytes bareSecret ++ List.replicate 1 0))) (secrets 10) [fullSecret] 16 (16 + ([fullSecret].flatMap secretBytes).length) :=
  C172_small _ rfl [fullSecret] (by intro s hs; rw [List.mem_singleton.1 hs]; exact full_fits) bareSecret _ (by decide +kernel) 10 (by decide)

def lockedRing : Ring := ⟨0, 0, 0, 0, some [108, 111, 103, 105, 110], 1200000000, 1200000000, 0, 1, 60, 1500, List.replicate 8 3, List.replicate 16 0, [⟨1, 0, [⟨some [117], .number 3⟩]⟩], List.replicate 32 7⟩

example : Reads ring lockedRing (ringBytes lockedRing 1) :=
  C172_lock lockedRing (by simp [RingFits, lockedRing, KeyTextFits, ItemFits, AttrFits, KeyValueFits]) ⟨rfl, rfl⟩

end Hachoir.Props

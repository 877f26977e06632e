import Verif.Formats.Reader
import Verif.Props.Records
import Verif.Props.Float
import Verif.Props.StringField

/-!
# What readers read

`Reads r v bs`: wherever the bytes `bs` are, the reader `r` gives `v` and stops behind them; `ReadsAll` when these bytes end the field set.
-/

namespace Hachoir.Props
open Hachoir Hachoir.Stream Hachoir.Field Hachoir.Formats Spec

/-- In every stream, wherever the bytes are (and the field set does not end before), they are read as `v`. -/
def Reads {α : Type} (r : Rd α) (v : α) (bs : Bytes) : Prop :=
  ∀ (data : Bytes) (s : InputStream), stringInputStream data = .ok s → ∀ (k stop : Nat), bs <+: data.drop k →
    8 * (k + bs.length) ≤ stop → r s stop (8 * k) = .ok (v, 8 * (k + bs.length))

/-- The same for bytes that end the field set. -/
def ReadsAll {α : Type} (r : Rd α) (v : α) (bs : Bytes) : Prop :=
  ∀ (data : Bytes) (s : InputStream), stringInputStream data = .ok s → ∀ (k : Nat), bs <+: data.drop k →
    r s (8 * (k + bs.length)) (8 * k) = .ok (v, 8 * (k + bs.length))

theorem Reads.all {α : Type} {r : Rd α} {v : α} {bs : Bytes} (h : Reads r v bs) : ReadsAll r v bs :=
  fun data s hs k hp => h data s hs k _ hp (Nat.le_refl _)

theorem reads_pure {α : Type} (v : α) : Reads (Pure.pure v : Rd α) v [] := fun _ _ _ _ _ _ _ => rfl

theorem reads_rpure {α : Type} (v : α) : Reads (Rd.pure v) v [] := fun _ _ _ _ _ _ _ => rfl

theorem Reads.bind {α β : Type} {r : Rd α} {f : α → Rd β} {v : α} {w : β} {xs ys : Bytes} (h1 : Reads r v xs) (h2 : Reads (f v) w ys) :
    Reads (r >>= f) w (xs ++ ys) := by
  intro data s hs k stop hp hst
  rw [List.length_append] at hst ⊢
  show Rd.bind r f s stop (8 * k) = _
  rw [Rd.bind, h1 data s hs k stop (prefix_left (xs := xs) (ys := ys) hp) (by omega)]
  have := h2 data s hs (k + xs.length) stop (drop_prefix (xs := xs) (ys := ys) hp) (by omega)
  rw [show k + (xs.length + ys.length) = k + xs.length + ys.length by omega]
  exact this

theorem Reads.rbind {α β : Type} {r : Rd α} {f : α → Rd β} {v : α} {w : β} {xs ys : Bytes} (h1 : Reads r v xs) (h2 : Reads (f v) w ys) :
    Reads (Rd.bind r f) w (xs ++ ys) := Reads.bind h1 h2

theorem Reads.bind_all {α β : Type} {r : Rd α} {f : α → Rd β} {v : α} {w : β} {xs ys : Bytes} (h1 : Reads r v xs) (h2 : ReadsAll (f v) w ys) :
    ReadsAll (r >>= f) w (xs ++ ys) := by
  intro data s hs k hp
  show Rd.bind r f s _ (8 * k) = _
  rw [Rd.bind, h1 data s hs k _ (prefix_left (xs := xs) (ys := ys) hp) (by rw [List.length_append]; omega)]
  have := h2 data s hs (k + xs.length) (drop_prefix (xs := xs) (ys := ys) hp)
  rw [List.length_append, show k + (xs.length + ys.length) = k + xs.length + ys.length by omega]
  exact this

/-- The last step, which only puts the values together. -/
theorem Reads.map {α β : Type} {r : Rd α} {f : α → β} {v : α} {xs : Bytes} (h1 : Reads r v xs) : Reads (r >>= fun a => Pure.pure (f a)) (f v) xs := by
  have := Reads.bind (f := fun a => Pure.pure (f a)) h1 (reads_pure (f v))
  rwa [List.append_nil] at this

theorem Reads.rmap {α β : Type} {r : Rd α} {f : α → β} {v : α} {xs : Bytes} (h1 : Reads r v xs) : Reads (Rd.bind r fun a => Rd.pure (f a)) (f v) xs :=
  Reads.map h1

theorem Reads.of_eq {α : Type} {r : Rd α} {v w : α} {bs cs : Bytes} (h : Reads r v bs) (hv : v = w) (hb : bs = cs) : Reads r w cs := by
  subst hv hb; exact h

/-- The bytes `bs` cannot be read. -/
def Fails {α : Type} (r : Rd α) (e : PyErr) (bs : Bytes) : Prop :=
  ∀ (data : Bytes) (s : InputStream), stringInputStream data = .ok s → ∀ (k stop : Nat), bs <+: data.drop k →
    8 * (k + bs.length) ≤ stop → r s stop (8 * k) = .error e

theorem fails_fail {α : Type} (e : PyErr) : Fails (Rd.fail e : Rd α) e [] := fun _ _ _ _ _ _ _ => rfl

theorem Reads.fails {α β : Type} {r : Rd α} {f : α → Rd β} {v : α} {e : PyErr} {xs ys : Bytes} (h1 : Reads r v xs) (h2 : Fails (f v) e ys) :
    Fails (r >>= f) e (xs ++ ys) := by
  intro data s hs k stop hp hst
  rw [List.length_append] at hst
  show Rd.bind r f s stop (8 * k) = _
  rw [Rd.bind, h1 data s hs k stop (prefix_left (xs := xs) (ys := ys) hp) (by omega)]
  simp only []
  have hd : ys <+: data.drop (k + xs.length) := drop_prefix (xs := xs) (ys := ys) hp
  exact h2 data s hs (k + xs.length) stop hd (by omega)

theorem reads_int_le (n v : Nat) (hn : 0 < n) (hv : v < 256 ^ n) : Reads (Rd.int n .little) v (leBytes n v) := by
  intro data s hs k stop hp _
  rw [Rd.int, read_le data s hs n k v hn hv hp _ rfl _ rfl, leBytes_length]
  exact congrArg (fun a => Except.ok (v, a)) (by omega)

theorem reads_int_be (n v : Nat) (hn : 0 < n) (hv : v < 256 ^ n) : Reads (Rd.int n .big) v (beBytes n v) := by
  intro data s hs k stop hp _
  rw [Rd.int, read_be data s hs n k v hn hv hp _ rfl _ rfl, beBytes_length]
  exact congrArg (fun a => Except.ok (v, a)) (by omega)

theorem reads_byte (b : UInt8) (e : Endian) (he : e ≠ .middle) : Reads (Rd.int 1 e) b.toNat [b] := by
  intro data s hs k stop hp _
  rw [Rd.int, show 8 * 1 = 8 from rfl, read_byte data s hs k b e he hp _ rfl]
  rfl

theorem reads_raw (bs : Bytes) (h : bs ≠ []) : Reads (Rd.raw bs.length) bs bs := by
  intro data s hs k stop hp _
  have := List.length_pos_of_ne_nil h
  rw [Rd.raw, if_neg (by omega), readBytes_prefix data s hs k bs hp]
  exact congrArg (fun a => Except.ok (bs, a)) (by omega)

theorem reads_raw_n (n : Nat) (bs : Bytes) (hn : bs.length = n) (h : 0 < n) : Reads (Rd.raw n) bs bs := by
  subst hn
  exact reads_raw bs (List.ne_nil_of_length_pos h)

theorem reads_signed_le (n : Nat) (v : Int) (hn : 0 < n) (h1 : -(2 ^ (8 * n - 1) : Nat) ≤ v) (h2 : v < (2 ^ (8 * n - 1) : Nat)) :
    Reads (Rd.signed n .little) v (leBytes n (v % (256 ^ n : Nat)).toNat) := by
  intro data s hs k stop hp hst
  have h256 : (256 : Nat) ^ n = 2 * 2 ^ (8 * n - 1) := by
    rw [show (256 : Nat) = 2 ^ 8 from rfl, ← Nat.pow_mul, ← Nat.pow_succ']
    congr 1
    omega
  have h2n : (2 : Nat) ^ (8 * n) = 2 * 2 ^ (8 * n - 1) := by
    rw [← Nat.pow_succ']
    congr 1
    omega
  have hb : (v % (256 ^ n : Nat)).toNat < 256 ^ n := by
    rw [h256]
    have : 0 < 2 ^ (8 * n - 1) := Nat.two_pow_pos _
    generalize (2 : Nat) ^ (8 * n - 1) = m at *
    have := Int.emod_lt_of_pos v (show (0 : Int) < ((2 * m : Nat) : Int) by omega)
    omega
  rw [Rd.signed, readInteger, read_le data s hs n k _ hn hb hp _ rfl _ rfl]
  simp only [if_true]
  rw [if_neg (by omega), Nat.one_shiftLeft, Nat.one_shiftLeft, leBytes_length]
  have hm : 0 < 2 ^ (8 * n - 1) := Nat.two_pow_pos _
  rw [h256, h2n]
  generalize (2 : Nat) ^ (8 * n - 1) = m at *
  by_cases hv : 0 ≤ v
  · have e : v % ((2 * m : Nat) : Int) = v := Int.emod_eq_of_lt hv (by omega)
    rw [e, if_neg (by omega)]
    simp only [Except.ok.injEq, Prod.mk.injEq]
    omega
  · have e : v % ((2 * m : Nat) : Int) = v + (2 * m : Nat) := by
      rw [← Int.add_emod_right]
      exact Int.emod_eq_of_lt (by omega) (by omega)
    rw [e, if_pos (by omega)]
    simp only [Except.ok.injEq, Prod.mk.injEq]
    omega

theorem reads_fixed (endian : Endian) (charset : Charset) (hc : charset ≠ .unknown ∧ charset ≠ .utf16bom ∧ charset ≠ .utf32bom) (n : Nat) (b : Bytes)
    (hb : b.length = n) (hn : 1 ≤ n ∧ n ≤ 65535) : Reads (Rd.text endian .fixed charset (some n)) b b := by
  subst hb
  intro data s hs k stop hp hst
  have hl := hp.length_le
  rw [List.length_drop] at hl
  obtain ⟨r1, r2⟩ := C50_fixed hs endian k b.length hn (by omega) charset hc
  rw [Rd.text, r1]
  simp only []
  rw [r2, (take_of_prefix hp).1]
  simp only [Except.ok.injEq, Prod.mk.injEq, true_and]
  omega

theorem fails_fixed (endian : Endian) (charset : Charset) (n : Nat) (hn : 65535 < n) (bs : Bytes) :
    Fails (Rd.text endian .fixed charset (some n)) .field bs := by
  intro data s hs k stop hp hst
  rw [Rd.text, C50_fixed_range s endian _ (n : Int) (by omega) charset]

theorem reads_cstring (endian : Endian) (he : endian ≠ .middle) (charset : Charset) (hc : charset = .eightBit ∨ charset = .utf8) (b : Bytes)
    (hb : ∀ x ∈ b, x ≠ 0) : Reads (Rd.text endian .c charset none) b (b ++ [0]) := by
  intro data s hs k stop hp hst
  have hl := hp.length_le
  rw [List.length_drop, List.length_append] at hl
  obtain ⟨t, ht⟩ := hp
  have e : (data.drop k).takeWhile (· ≠ 0) = b := by
    rw [← ht, List.append_assoc, List.takeWhile_append_of_pos (by simpa using hb)]
    simp
  have r := C42_byte hs endian he k (by simp at hl; omega) .c 0 rfl charset hc
  simp only [e] at r
  rw [if_pos (by simp [← ht])] at r
  rw [Rd.text, r.1]
  simp only []
  rw [r.2]
  simp only [List.length_append, List.length_cons, List.length_nil, Except.ok.injEq, Prod.mk.injEq, true_and]
  omega

theorem reads_pascal8 (endian : Endian) (he : endian ≠ .middle) (charset : Charset)
    (hc : charset ≠ .unknown ∧ charset ≠ .utf16bom ∧ charset ≠ .utf32bom) (b : Bytes) (hb : b.length < 256) :
    Reads (Rd.text endian .pascal8 charset none) b (UInt8.ofNat b.length :: b) := by
  intro data s hs k stop hp hst
  obtain ⟨t, ht⟩ := hp
  have e : (UInt8.ofNat b.length).toNat = b.length := by rw [UInt8.toNat_ofNat']; omega
  obtain ⟨r1, r2⟩ := C50_pascal_partial hs endian he k .pascal8 1 rfl [UInt8.ofNat b.length] b t rfl (by rw [← ht]; rfl)
    (by cases endian <;> simp [prefixNumber, ofBytesLE, ofBytesBE, e] at he ⊢) charset hc
  rw [Rd.text, r1]
  simp only []
  rw [r2]
  simp only [List.length_cons, Except.ok.injEq, Prod.mk.injEq, true_and]
  omega

theorem Reads.peek {α : Type} {f : Nat → Rd α} {v : α} (e : Endian) (he : e ≠ .middle) (b : UInt8) {bs : Bytes} (h : Reads (f b.toNat) v (b :: bs)) :
    Reads (Rd.peek e >>= f) v (b :: bs) := by
  intro data s hs k stop hp hst
  show Rd.bind (Rd.peek e) f s stop (8 * k) = _
  rw [Rd.bind, Rd.peek, read_byte data s hs k b e he (prefix_left (xs := [b]) (ys := bs) hp) _ rfl]
  exact h data s hs k stop hp hst

/-- Not at the end, if something is still to be read. -/
theorem Reads.not_eof {α : Type} {f : Bool → Rd α} {v : α} {bs : Bytes} (hne : bs ≠ []) (h : Reads (f false) v bs) : Reads (Rd.eof >>= f) v bs := by
  intro data s hs k stop hp hst
  have := List.length_pos_of_ne_nil hne
  show Rd.bind Rd.eof f s stop (8 * k) = _
  rw [Rd.bind, Rd.eof, decide_eq_false (by omega)]
  exact h data s hs k stop hp hst

theorem ReadsAll.not_eof {α : Type} {f : Bool → Rd α} {v : α} {bs : Bytes} (hne : bs ≠ []) (h : ReadsAll (f false) v bs) :
    ReadsAll (Rd.eof >>= f) v bs := by
  intro data s hs k hp
  have := List.length_pos_of_ne_nil hne
  show Rd.bind Rd.eof f s _ (8 * k) = _
  rw [Rd.bind, Rd.eof, decide_eq_false (by omega)]
  exact h data s hs k hp

/-- At the end. -/
theorem ReadsAll.at_eof {α : Type} {f : Bool → Rd α} {v : α} (h : ReadsAll (f true) v []) : ReadsAll (Rd.eof >>= f) v [] := by
  intro data s hs k hp
  show Rd.bind Rd.eof f s _ (8 * k) = _
  rw [Rd.bind, Rd.eof, decide_eq_true (by simp)]
  exact h data s hs k hp

theorem ReadsAll.within {α : Type} {r : Rd α} {v : α} {bs : Bytes} (h : ReadsAll r v bs) (n : Nat) (hn : n = bs.length) : Reads (Rd.within n r) v bs := by
  subst hn
  intro data s hs k stop hp _
  have := h data s hs k hp
  rw [show 8 * (k + bs.length) = 8 * k + 8 * bs.length by omega] at this ⊢
  rw [Rd.within, this]

theorem reads_times {α : Type} (r : Rd α) (enc : α → Bytes) : ∀ (vs : List α), (∀ v ∈ vs, Reads r v (enc v)) →
    Reads (Rd.times r vs.length) vs (vs.flatMap enc)
  | [], _ => reads_rpure _
  | v :: vs, h => by
    rw [List.flatMap_cons]
    exact Reads.rbind (h v (by simp)) (Reads.rmap (f := fun as => v :: as) (reads_times r enc vs fun x hx => h x (by simp [hx])))

theorem reads_times_n {α : Type} (r : Rd α) (enc : α → Bytes) (vs : List α) (n : Nat) (hn : n = vs.length) (h : ∀ v ∈ vs, Reads r v (enc v)) :
    Reads (Rd.times r n) vs (vs.flatMap enc) := by
  subst hn; exact reads_times r enc vs h

theorem reads_times_map {α γ : Type} (r : Rd α) (val : γ → α) (enc : γ → Bytes) : ∀ (cs : List γ), (∀ c ∈ cs, Reads r (val c) (enc c)) →
    Reads (Rd.times r cs.length) (cs.map val) (cs.flatMap enc)
  | [], _ => reads_rpure _
  | c :: cs, h => by
    rw [List.flatMap_cons]
    exact Reads.rbind (h c (by simp)) (Reads.rmap (f := fun as => val c :: as) (reads_times_map r val enc cs fun x hx => h x (by simp [hx])))

/-- For every element `x` something is read into `g x`. -/
theorem reads_each {α β γ : Type} (f : α → Rd β) (key : γ → α) (val : γ → β) (enc : γ → Bytes) : ∀ (cs : List γ),
    (∀ c ∈ cs, Reads (f (key c)) (val c) (enc c)) → Reads (Rd.each f (cs.map key)) (cs.map val) (cs.flatMap enc)
  | [], _ => reads_rpure _
  | c :: cs, h => by
    rw [List.flatMap_cons]
    exact Reads.rbind (h c (by simp)) (Reads.rmap (f := fun as => val c :: as) (reads_each f key val enc cs fun x hx => h x (by simp [hx])))

theorem reads_while {α : Type} (r : Rd α) (enc : α → Bytes) : ∀ (vs : List α) (n : Nat), vs.length < n → (∀ v ∈ vs, Reads r v (enc v) ∧ enc v ≠ []) →
    ReadsAll (Rd.whileNotEof r n) vs (vs.flatMap enc)
  | [], n + 1, _, _ => ReadsAll.at_eof (Reads.all (reads_rpure _))
  | v :: vs, n + 1, hn, h => by
    have ih := reads_while r enc vs n (by simpa using hn) fun x hx => h x (by simp [hx])
    obtain ⟨h1, h2⟩ := h v (by simp)
    rw [List.flatMap_cons]
    refine ReadsAll.not_eof (by simp [h2]) ?_
    refine Reads.bind_all h1 ?_
    intro data s hs k hp
    show Rd.bind (Rd.whileNotEof r n) (fun as => Rd.pure (v :: as)) s _ (8 * k) = _
    rw [Rd.bind, ih data s hs k hp]
    rfl

/-- A round of a loop that looks at the next byte. -/
theorem Reads.loop {α : Type} {a : Rd α} {f : Nat → Rd α} {v : α} (e : Endian) (he : e ≠ .middle) (b : UInt8) {bs : Bytes} (hb : bs.head? = some b)
    (h : Reads (f b.toNat) v bs) : Reads (Rd.eof >>= fun x => if x then a else Rd.peek e >>= f) v bs := by
  cases bs with
  | nil => simp at hb
  | cons x xs =>
    simp only [List.head?_cons, Option.some.injEq] at hb
    subst hb
    exact Reads.not_eof (by simp) (Reads.peek e he x h)

/-- A number cut into fields of these widths, the lowest first. -/
def splitLE : List Nat → Nat → List Nat
  | [], _ => []
  | w :: ws, v => v % 2 ^ w :: splitLE ws (v / 2 ^ w)

theorem bits_le {data : Bytes} {s : InputStream} (hs : stringInputStream data = .ok s) (k : Nat) (bs : Bytes) (hp : bs <+: data.drop k) (h0 : 0 < bs.length)
    (stop : Nat) : ∀ (ws : List Nat) (a : Nat), a + ws.sum ≤ 8 * bs.length →
      Rd.bits .little ws s stop (8 * k + a) = .ok (splitLE ws (ofBytesLE bs / 2 ^ a), 8 * k + a + ws.sum)
  | [], _, _ => rfl
  | w :: ws, a, h => by
    rw [List.sum_cons] at h
    rw [Rd.bits, Rd.bind, Rd.bit, readBits_in data s hs k a w bs hp (by omega) h0 _ rfl]
    simp only []
    rw [Rd.bind, Nat.add_assoc (8 * k) a w, bits_le hs k bs hp h0 stop ws (a + w) (by omega)]
    rw [List.sum_cons, splitLE, Nat.div_div_eq_div_mul, ← Nat.pow_add]
    simp only [Rd.pure, Except.ok.injEq, Prod.mk.injEq, true_and]
    omega

/-- Bit fields that fill whole bytes. -/
theorem reads_bits_le (ws : List Nat) (bs : Bytes) (h0 : 0 < bs.length) (hw : ws.sum = 8 * bs.length) :
    Reads (Rd.bits .little ws) (splitLE ws (ofBytesLE bs)) bs := by
  intro data s hs k stop hp _
  have := bits_le hs k bs hp h0 stop ws 0 (by omega)
  rw [Nat.pow_zero, Nat.div_one, Nat.add_zero] at this
  rw [this]
  simp only [Except.ok.injEq, Prod.mk.injEq, true_and]
  omega

/-- A number cut into fields of these widths, the highest first. -/
def splitBE : List Nat → Nat → List Nat
  | [], _ => []
  | w :: ws, v => v / 2 ^ ws.sum % 2 ^ w :: splitBE ws v

theorem bits_be {data : Bytes} {s : InputStream} (hs : stringInputStream data = .ok s) (k : Nat) (bs : Bytes) (hp : bs <+: data.drop k) (h0 : 0 < bs.length)
    (stop : Nat) : ∀ (ws : List Nat) (a : Nat), a + ws.sum = 8 * bs.length →
      Rd.bits .big ws s stop (8 * k + a) = .ok (splitBE ws (ofBytesBE bs), 8 * k + a + ws.sum)
  | [], _, _ => rfl
  | w :: ws, a, h => by
    rw [List.sum_cons] at h
    rw [Rd.bits, Rd.bind, Rd.bit, readBits_mid data s hs k a w bs hp (by omega) h0 _ rfl]
    simp only []
    rw [Rd.bind, Nat.add_assoc (8 * k) a w, bits_be hs k bs hp h0 stop ws (a + w) (by omega)]
    rw [List.sum_cons, splitBE, show 8 * bs.length - a - w = ws.sum by omega]
    simp only [Rd.pure, Except.ok.injEq, Prod.mk.injEq, true_and]
    omega

theorem reads_bits_be (ws : List Nat) (bs : Bytes) (h0 : 0 < bs.length) (hw : ws.sum = 8 * bs.length) :
    Reads (Rd.bits .big ws) (splitBE ws (ofBytesBE bs)) bs := by
  intro data s hs k stop hp _
  have := bits_be hs k bs hp h0 stop ws 0 (by omega)
  rw [Nat.add_zero] at this
  rw [this]
  simp only [Except.ok.injEq, Prod.mk.injEq, true_and]
  omega

/-- What is read from a whole stream. -/
theorem Reads.run {α : Type} {r : Rd α} {v : α} {bs : Bytes} (h : Reads r v bs) (s : InputStream) (hs : stringInputStream bs = .ok s) :
    r s (8 * bs.length) 0 = .ok (v, 8 * bs.length) := by
  have := h bs s hs 0 (8 * bs.length) (List.prefix_refl _) (by omega)
  simpa using this

/-! ## At places of a file -/

/-- From byte `a` of the whole file `data`, `r` gives `v` and stops at byte `b`. -/
def AtPlace {α : Type} (data : Bytes) (r : Rd α) (v : α) (a b : Nat) : Prop :=
  ∀ s : InputStream, stringInputStream data = .ok s → r s (8 * data.length) (8 * a) = .ok (v, 8 * b)

theorem Reads.at {α : Type} {r : Rd α} {v : α} {bs : Bytes} (h : Reads r v bs) {data : Bytes} {a : Nat} (hp : bs <+: data.drop a) (ha : a ≤ data.length) :
    AtPlace data r v a (a + bs.length) := by
  intro s hs
  have hl := hp.length_le
  rw [List.length_drop] at hl
  exact h data s hs a _ hp (by omega)

theorem AtPlace.bind {α β : Type} {data : Bytes} {r : Rd α} {f : α → Rd β} {v : α} {w : β} {a b c : Nat} (h1 : AtPlace data r v a b) (h2 : AtPlace data (f v) w b c) :
    AtPlace data (r >>= f) w a c := by
  intro s hs
  show Rd.bind r f s _ (8 * a) = _
  rw [Rd.bind, h1 s hs]
  exact h2 s hs

theorem at_pure {α : Type} (data : Bytes) (v : α) (a : Nat) : AtPlace data (Pure.pure v : Rd α) v a a := fun _ _ => rfl

theorem AtPlace.map {α β : Type} {data : Bytes} {r : Rd α} {f : α → β} {v : α} {a b : Nat} (h : AtPlace data r v a b) :
    AtPlace data (r >>= fun x => Pure.pure (f x)) (f v) a b := AtPlace.bind h (at_pure data (f v) b)

theorem at_seek (data : Bytes) (a n : Nat) (h : a ≤ n) : AtPlace data (Rd.seek n) () a n := by
  intro s hs
  rw [Rd.seek, if_neg (by omega)]

theorem at_jump (data : Bytes) (a n : Nat) : AtPlace data (Rd.jump n) () a n := fun _ _ => rfl

theorem at_limit (data : Bytes) (a : Nat) : AtPlace data Rd.limit (8 * data.length) a a := fun _ _ => rfl

/-- A field set of told size, whose fields need not fill it. -/
theorem Reads.within_at {α : Type} {r : Rd α} {v : α} {bs : Bytes} (h : Reads r v bs) {data : Bytes} {a n : Nat} (hp : bs <+: data.drop a) (hn : bs.length ≤ n) :
    AtPlace data (Rd.within n r) v a (a + n) := by
  intro s hs
  rw [Rd.within, h data s hs a (8 * a + 8 * n) hp (by omega)]
  exact congrArg (fun n => Except.ok (v, n)) (by omega)

/-- Things at any places that do not overlap, in the order of their places. -/
theorem at_sorted {γ α : Type} (data : Bytes) (f : γ → Rd α) (off len : γ → Nat) (val : γ → α) : ∀ (l : List γ) (a : Nat),
    l.Pairwise (fun x y => off x ≤ off y) → l.Pairwise (fun x y => off x + len x ≤ off y ∨ off y + len y ≤ off x) →
    (∀ x ∈ l, a ≤ off x ∧ 0 < len x ∧ AtPlace data (f x) (val x) (off x) (off x + len x)) →
    ∃ b, AtPlace data (Rd.each (fun x => Rd.seek (off x) >>= fun _ => f x) l) (l.map val) a b
  | [], a, _, _, _ => ⟨a, fun _ _ => rfl⟩
  | x :: l, a, hs, hd, h => by
    rw [List.pairwise_cons] at hs hd
    obtain ⟨h1, h2, h3⟩ := h x (by simp)
    obtain ⟨b, hb⟩ := at_sorted data f off len val l (off x + len x) hs.2 hd.2 fun y hy => by
      obtain ⟨_, y2, y3⟩ := h y (by simp [hy])
      have := hs.1 y hy
      have := hd.1 y hy
      exact ⟨by omega, y2, y3⟩
    exact ⟨b, AtPlace.bind (AtPlace.bind (at_seek data a (off x) h1) h3) (AtPlace.map (f := fun vs => val x :: vs) hb)⟩

end Hachoir.Props

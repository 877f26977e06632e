import Verif.Formats.Flv
import Verif.Props.StringField
import Verif.Props.Records

/-!
# C111, C112, C113: AMF values and Flash video

The specification writes values as AMF 0 does (`amfBytes`) and tags as FLV does (`tagBytes`).
-/

set_option linter.unusedVariables false

namespace Hachoir.Props
open Hachoir Hachoir.Stream Hachoir.Field Hachoir.Formats Hachoir.Formats.Flv Spec

/-! ## Specification of AMF -/

mutual
/-- Values: numbers and dates with the 64 bits of the number, objects, arrays with keys (and the
count in front, which is only a hint), arrays with numbers. -/
inductive Amf where
  | number (bits : Nat)
  | boolean (value : UInt8)
  | string (text : Bytes)
  | object (props : AmfProps)
  | keyed (hint : Nat) (props : AmfProps)
  | strict (elems : AmfElems)
  | date (bits zone : Nat)
/-- Properties. -/
inductive AmfProps where
  | nil
  | cons (key : Bytes) (value : Amf) (rest : AmfProps)
/-- Elements. -/
inductive AmfElems where
  | nil
  | cons (value : Amf) (rest : AmfElems)
end

def AmfProps.count : AmfProps → Nat
  | .nil => 0
  | .cons _ _ rest => rest.count + 1

def AmfElems.count : AmfElems → Nat
  | .nil => 0
  | .cons _ rest => rest.count + 1

mutual
/-- The bytes of a value: its type ... -/
def amfType : Amf → UInt8
  | .number _ => 0
  | .boolean _ => 1
  | .string _ => 2
  | .object _ => 3
  | .keyed _ _ => 8
  | .strict _ => 10
  | .date _ _ => 11
/-- ... and what follows. -/
def amfBody : Amf → Bytes
  | .number bits => beBytes 8 bits
  | .boolean v => [v]
  | .string t => beBytes 2 t.length ++ t
  | .object props => propsBytes props
  | .keyed hint props => beBytes 4 hint ++ propsBytes props
  | .strict elems => beBytes 4 elems.count ++ elemsBytes elems
  | .date bits zone => beBytes 8 bits ++ beBytes 2 zone
/-- Properties end with an empty key and type 9. -/
def propsBytes : AmfProps → Bytes
  | .nil => beBytes 2 0 ++ [9]
  | .cons key v rest => beBytes 2 key.length ++ key ++ amfType v :: (amfBody v ++ propsBytes rest)
def elemsBytes : AmfElems → Bytes
  | .nil => []
  | .cons v rest => amfType v :: (amfBody v ++ elemsBytes rest)
end

/-- The bytes of a value. -/
def amfBytes (v : Amf) : Bytes := amfType v :: amfBody v

mutual
/-- Numbers fit, keys are not empty, and the hint is not too small. -/
def AmfGood : Amf → Prop
  | .number bits => bits < 2 ^ 64
  | .boolean _ => True
  | .string t => t.length < 2 ^ 16
  | .object props => PropsGood props
  | .keyed hint props => hint < 2 ^ 32 ∧ props.count ≤ hint ∧ PropsGood props
  | .strict elems => elems.count < 2 ^ 32 ∧ ElemsGood elems
  | .date bits zone => bits < 2 ^ 64 ∧ zone < 2 ^ 16
def PropsGood : AmfProps → Prop
  | .nil => True
  | .cons key v rest => key ≠ [] ∧ key.length < 2 ^ 16 ∧ AmfGood v ∧ PropsGood rest
def ElemsGood : AmfElems → Prop
  | .nil => True
  | .cons v rest => AmfGood v ∧ ElemsGood rest
end

mutual
/-- The fields that show a value. -/
def amfShown : Amf → Value
  | .number bits => .double bits
  | .boolean v => .bool v.toNat
  | .string t => .text t
  | .object props => .object (propsShown props)
  | .keyed hint props => .mixed hint (propsShown props)
  | .strict elems => .array (elemsShown elems)
  | .date bits zone => .date bits zone
def propsShown : AmfProps → Items
  | .nil => .cons (some []) .stop .nil
  | .cons key v rest => .cons (some key) (amfShown v) (propsShown rest)
def elemsShown : AmfElems → Items
  | .nil => .nil
  | .cons v rest => .cons none (amfShown v) (elemsShown rest)
end

mutual
/-- The number of objects, for the fuel. -/
def amfSize : Amf → Nat
  | .object props => propsSize props + 1
  | .keyed _ props => propsSize props + 1
  | .strict elems => elemsSize elems + 1
  | .number _ => 1
  | .boolean _ => 1
  | .string _ => 1
  | .date _ _ => 1
def propsSize : AmfProps → Nat
  | .nil => 2
  | .cons _ v rest => amfSize v + propsSize rest + 1
def elemsSize : AmfElems → Nat
  | .nil => 1
  | .cons v rest => amfSize v + elemsSize rest + 1
end

/-! ## AMF -/

theorem read_string {data : Bytes} {s : InputStream} (hs : stringInputStream data = .ok s) (k : Nat) (t : Bytes)
    (ht : t.length < 2 ^ 16) (hp : beBytes 2 t.length ++ t <+: data.drop k) :
    readString s (8 * k) = .ok (t, 8 * (k + 2 + t.length)) := by
  obtain ⟨rest, hr⟩ := hp
  have hb := beBytes_big 2 t.length (by omega)
  obtain ⟨h1, h2⟩ := C50_pascal_partial hs .big (by simp) k .pascal16 2 rfl (beBytes 2 t.length) t rest (beBytes_length 2 _)
    (by rw [← hr, List.append_assoc]) hb.2 .eightBit (by simp)
  rw [readString, h1]
  simp only []
  rw [h2]
  simp only []
  exact congrArg (fun x => Except.ok (t, x)) (by omega)

theorem flv_one {data : Bytes} {k : Nat} {x : UInt8} {xs : Bytes} (h : x :: xs <+: data.drop k) : [x] <+: data.drop k :=
  prefix_left (xs := [x]) (ys := xs) (by simpa using h)

theorem flv_tail {data : Bytes} {k : Nat} {x : UInt8} {xs : Bytes} (h : x :: xs <+: data.drop k) : xs <+: data.drop (k + 1) :=
  drop_prefix (xs := [x]) (by simpa using h)

theorem type_toNat (v : Amf) : (amfType v).toNat = 0 ∨ (amfType v).toNat = 1 ∨ (amfType v).toNat = 2 ∨ (amfType v).toNat = 3 ∨
    (amfType v).toNat = 8 ∨ (amfType v).toNat = 10 ∨ (amfType v).toNat = 11 := by
  cases v <;> simp [amfType]

mutual
theorem read_amf {data : Bytes} {s : InputStream} (hs : stringInputStream data = .ok s) :
    ∀ (v : Amf) (fuel k : Nat), AmfGood v → amfBody v <+: data.drop k → amfSize v ≤ fuel →
      readContent s fuel (amfType v).toNat (8 * k) = .ok (amfShown v, 8 * (k + (amfBody v).length))
  | .number bits, fuel, k, hg, hp, hf => by
    simp only [amfSize, AmfGood, amfBody] at *
    obtain ⟨fuel, rfl⟩ : ∃ f, fuel = f + 1 := ⟨fuel - 1, by omega⟩
    rw [readContent, if_pos (by rfl), read_be data s hs 8 k bits (by omega) (by omega) hp 64 rfl _ rfl, beBytes_length]
    rfl
  | .boolean b, fuel, k, hg, hp, hf => by
    simp only [amfSize, AmfGood, amfBody] at *
    obtain ⟨fuel, rfl⟩ : ∃ f, fuel = f + 1 := ⟨fuel - 1, by omega⟩
    rw [readContent, if_neg (by clear * -; simp [amfType]), if_pos (by rfl), read_byte data s hs k b .big (by simp) hp _ rfl]
    rfl
  | .string t, fuel, k, hg, hp, hf => by
    simp only [amfSize, AmfGood, amfBody] at *
    obtain ⟨fuel, rfl⟩ : ∃ f, fuel = f + 1 := ⟨fuel - 1, by omega⟩
    rw [readContent, if_neg (by clear * -; simp [amfType]), if_neg (by clear * -; simp [amfType]), if_pos (by rfl),
      read_string hs k t hg hp, List.length_append, beBytes_length, Nat.add_assoc]
    rfl
  | .object props, fuel, k, hg, hp, hf => by
    simp only [amfSize, AmfGood, amfBody] at *
    obtain ⟨fuel, rfl⟩ : ∃ f, fuel = f + 1 := ⟨fuel - 1, by omega⟩
    rw [readContent, if_neg (by clear * -; simp [amfType]), if_neg (by clear * -; simp [amfType]), if_neg (by clear * -; simp [amfType]),
      if_pos (by rfl), read_attrs hs props fuel none k hg hp (by simp) (by omega)]
    rfl
  | .keyed hint props, fuel, k, hg, hp, hf => by
    simp only [amfSize, AmfGood, amfBody] at *
    obtain ⟨fuel, rfl⟩ : ∃ f, fuel = f + 1 := ⟨fuel - 1, by omega⟩
    have hp2 := drop_prefix hp
    rw [beBytes_length] at hp2
    rw [readContent, if_neg (by clear * -; simp [amfType]), if_neg (by clear * -; simp [amfType]), if_neg (by clear * -; simp [amfType]),
      if_neg (by clear * -; simp [amfType]), if_pos (by rfl),
      read_be data s hs 4 k hint (by omega) (by omega) (prefix_left hp) 32 rfl _ rfl]
    simp only []
    rw [show 8 * k + 32 = 8 * (k + 4) by omega,
      read_attrs hs props fuel (some (hint + 1)) (k + 4) hg.2.2 hp2 (by intro n hn; cases hn; omega) (by omega), List.length_append,
      beBytes_length, Nat.add_assoc]
    rfl
  | .strict elems, fuel, k, hg, hp, hf => by
    simp only [amfSize, AmfGood, amfBody] at *
    obtain ⟨fuel, rfl⟩ : ∃ f, fuel = f + 1 := ⟨fuel - 1, by omega⟩
    have hp2 := drop_prefix hp
    rw [beBytes_length] at hp2
    rw [readContent, if_neg (by clear * -; simp [amfType]), if_neg (by clear * -; simp [amfType]), if_neg (by clear * -; simp [amfType]),
      if_neg (by clear * -; simp [amfType]), if_neg (by clear * -; simp [amfType]), if_neg (by clear * -; simp [amfType]), if_pos (by rfl),
      read_be data s hs 4 k elems.count (by omega) (by omega) (prefix_left hp) 32 rfl _ rfl]
    simp only []
    rw [show 8 * k + 32 = 8 * (k + 4) by omega,
      read_elems hs elems fuel (k + 4) hg.2 hp2 (by omega), List.length_append, beBytes_length, Nat.add_assoc]
    rfl
  | .date bits zone, fuel, k, hg, hp, hf => by
    simp only [amfSize, AmfGood, amfBody] at *
    obtain ⟨fuel, rfl⟩ : ∃ f, fuel = f + 1 := ⟨fuel - 1, by omega⟩
    have hp2 := drop_prefix hp
    rw [beBytes_length] at hp2
    rw [readContent, if_neg (by clear * -; simp [amfType]), if_neg (by clear * -; simp [amfType]), if_neg (by clear * -; simp [amfType]),
      if_neg (by clear * -; simp [amfType]), if_neg (by clear * -; simp [amfType]), if_neg (by clear * -; simp [amfType]),
      if_neg (by clear * -; simp [amfType]), if_pos (by rfl),
      read_be data s hs 8 k bits (by omega) (by omega) (prefix_left hp) 64 rfl _ rfl]
    simp only []
    rw [read_be data s hs 2 (k + 8) zone (by omega) (by omega) hp2 16 rfl _ (by push_cast; omega), List.length_append, beBytes_length,
      beBytes_length]
    rfl

theorem read_attrs {data : Bytes} {s : InputStream} (hs : stringInputStream data = .ok s) :
    ∀ (props : AmfProps) (fuel : Nat) (limit : Option Nat) (k : Nat), PropsGood props → propsBytes props <+: data.drop k →
      (∀ n, limit = some n → props.count < n) → propsSize props ≤ fuel →
      readAttrs s fuel limit (8 * k) = .ok (propsShown props, 8 * (k + (propsBytes props).length))
  | .nil, fuel, limit, k, hg, hp, hl, hf => by
    simp only [propsSize, PropsGood, propsBytes, AmfProps.count] at *
    obtain ⟨fuel, rfl⟩ : ∃ f, fuel = f + 2 := ⟨fuel - 2, by omega⟩
    have hp2 := drop_prefix hp
    rw [beBytes_length] at hp2
    rw [readAttrs, if_neg (by intro h; have := hl 0 h; omega), read_string hs k [] (by decide) (by simpa using prefix_left hp)]
    simp only [List.length_nil]
    rw [read_byte data s hs (k + 2) 9 .big (by simp) hp2 _ rfl]
    simp only []
    rw [readContent, if_neg (by decide), if_neg (by decide), if_neg (by decide), if_neg (by decide), if_neg (by decide), if_pos (by rfl)]
    simp only [if_true]
    rw [List.length_append, beBytes_length]
    rfl
  | .cons key v rest, fuel, limit, k, hg, hp, hl, hf => by
    simp only [propsSize, PropsGood, propsBytes, AmfProps.count] at *
    obtain ⟨fuel, rfl⟩ : ∃ f, fuel = f + 1 := ⟨fuel - 1, by omega⟩
    have hp2 := drop_prefix hp
    rw [List.length_append, beBytes_length, ← Nat.add_assoc] at hp2
    have hp3 := flv_tail hp2
    rw [readAttrs, if_neg (by intro h; have := hl 0 h; omega), read_string hs k key hg.2.1 (prefix_left hp)]
    simp only []
    rw [read_byte data s hs (k + 2 + key.length) (amfType v) .big (by simp) (flv_one hp2) _ rfl]
    simp only []
    rw [show 8 * (k + 2 + key.length) + 8 = 8 * (k + 2 + key.length + 1) by omega,
      read_amf hs v fuel (k + 2 + key.length + 1) hg.2.2.1 (prefix_left hp3) (by omega)]
    simp only []
    rw [if_neg hg.1, read_attrs hs rest fuel (limit.map (· - 1)) _ hg.2.2.2 (drop_prefix hp3)
      (by
        intro n hn
        cases limit with
        | none => cases hn
        | some m =>
          have := hl m rfl
          simp only [Option.map_some, Option.some.injEq] at hn
          omega) (by omega)]
    simp only [List.length_append, beBytes_length, List.length_cons, propsShown]
    exact congrArg (fun x => Except.ok (Items.cons (some key) (amfShown v) (propsShown rest), x)) (by omega)

theorem read_elems {data : Bytes} {s : InputStream} (hs : stringInputStream data = .ok s) :
    ∀ (elems : AmfElems) (fuel k : Nat), ElemsGood elems → elemsBytes elems <+: data.drop k → elemsSize elems ≤ fuel →
      readArray s fuel elems.count (8 * k) = .ok (elemsShown elems, 8 * (k + (elemsBytes elems).length))
  | .nil, fuel, k, hg, hp, hf => by
    simp only [elemsSize, elemsBytes, AmfElems.count] at *
    obtain ⟨fuel, rfl⟩ : ∃ f, fuel = f + 1 := ⟨fuel - 1, by omega⟩
    rw [readArray]
    rfl
  | .cons v rest, fuel, k, hg, hp, hf => by
    simp only [elemsSize, ElemsGood, elemsBytes, AmfElems.count] at *
    obtain ⟨fuel, rfl⟩ : ∃ f, fuel = f + 1 := ⟨fuel - 1, by omega⟩
    have hp3 := flv_tail hp
    rw [readArray, read_byte data s hs k (amfType v) .big (by simp) (flv_one hp) _ rfl]
    simp only []
    rw [show 8 * k + 8 = 8 * (k + 1) by omega, read_amf hs v fuel (k + 1) hg.1 (prefix_left hp3) (by omega)]
    simp only []
    rw [read_elems hs rest fuel _ hg.2 (drop_prefix hp3) (by omega)]
    simp only [List.length_append, List.length_cons, elemsShown]
    exact congrArg (fun x => Except.ok (Items.cons none (amfShown v) (elemsShown rest), x)) (by omega)
end

/-- C111: a value is read as what was written, at any depth. -/
theorem C111_value (data : Bytes) (s : InputStream) (hs : stringInputStream data = .ok s) (v : Amf) (k : Nat) (hg : AmfGood v)
    (hp : amfBytes v <+: data.drop k) (fuel : Nat) (hf : amfSize v ≤ fuel) :
    readValue s fuel (8 * k) = .ok (amfShown v, 8 * (k + (amfBytes v).length)) := by
  rw [readValue, read_byte data s hs k (amfType v) .big (by simp) (flv_one hp) _ rfl]
  simp only []
  rw [show 8 * k + 8 = 8 * (k + 1) by omega, read_amf hs v fuel (k + 1) hg (flv_tail hp) hf]
  exact congrArg (fun x => Except.ok (amfShown v, x)) (by rw [amfBytes, List.length_cons]; omega)

mutual
theorem shown_inj : ∀ v w : Amf, amfShown v = amfShown w → v = w
  | .number a, w, h => by cases w <;> simp_all [amfShown]
  | .boolean a, w, h => by
    cases w <;> simp only [amfShown, Value.bool.injEq, reduceCtorEq] at h
    exact congrArg Amf.boolean (UInt8.toNat_inj.1 h)
  | .string a, w, h => by cases w <;> simp_all [amfShown]
  | .object a, w, h => by
    cases w <;> simp only [amfShown, Value.object.injEq, reduceCtorEq] at h
    exact congrArg Amf.object (props_inj _ _ h)
  | .keyed n a, w, h => by
    cases w <;> simp only [amfShown, Value.mixed.injEq, reduceCtorEq] at h
    rw [h.1, props_inj _ _ h.2]
  | .strict a, w, h => by
    cases w <;> simp only [amfShown, Value.array.injEq, reduceCtorEq] at h
    exact congrArg Amf.strict (elems_inj _ _ h)
  | .date a z, w, h => by cases w <;> simp_all [amfShown]
theorem props_inj : ∀ v w : AmfProps, propsShown v = propsShown w → v = w
  | .nil, .nil, h => rfl
  | .nil, .cons key v rest, h => by
    simp only [propsShown, Items.cons.injEq] at h
    cases v <;> simp [amfShown] at h
  | .cons key v rest, .nil, h => by
    simp only [propsShown, Items.cons.injEq] at h
    cases v <;> simp [amfShown] at h
  | .cons key v rest, .cons key' v' rest', h => by
    simp only [propsShown, Items.cons.injEq, Option.some.injEq] at h
    rw [h.1, shown_inj _ _ h.2.1, props_inj _ _ h.2.2]
theorem elems_inj : ∀ v w : AmfElems, elemsShown v = elemsShown w → v = w
  | .nil, .nil, h => rfl
  | .nil, .cons v rest, h => by simp [elemsShown] at h
  | .cons v rest, .nil, h => by simp [elemsShown] at h
  | .cons v rest, .cons v' rest', h => by
    simp only [elemsShown, Items.cons.injEq] at h
    rw [shown_inj _ _ h.2.1, elems_inj _ _ h.2.2]
end

/-- C111: different values are shown differently. -/
theorem C111_injective (v w : Amf) (h : amfShown v = amfShown w) : v = w := shown_inj v w h

/-- C111, violated: types that AMF has and the parser does not know (null, undefined, references, long
strings, XML, typed objects) are refused. -/
theorem C111_unknown (s : InputStream) (fuel type addr : Nat) (h : type ∈ [4, 5, 6, 7, 12, 13, 14, 15, 16, 17]) :
    readContent s (fuel + 1) type addr = .error .parser := by
  simp only [List.mem_cons, List.not_mem_nil, or_false] at h
  rw [readContent, if_neg (by omega), if_neg (by omega), if_neg (by omega), if_neg (by omega), if_neg (by omega), if_neg (by omega),
    if_neg (by omega), if_neg (by omega)]

/-- The first properties, as they are shown ... -/
def firstShown : Nat → AmfProps → Items
  | 0, _ => .nil
  | _, .nil => .nil
  | n + 1, .cons key v rest => .cons (some key) (amfShown v) (firstShown n rest)

/-- ... and their bytes. -/
def firstBytes : Nat → AmfProps → Bytes
  | 0, _ => []
  | _, .nil => []
  | n + 1, .cons key v rest => beBytes 2 key.length ++ key ++ amfType v :: (amfBody v ++ firstBytes n rest)

theorem read_first {data : Bytes} {s : InputStream} (hs : stringInputStream data = .ok s) :
    ∀ (props : AmfProps) (n fuel k : Nat), n ≤ props.count → PropsGood props → propsBytes props <+: data.drop k → propsSize props ≤ fuel →
      readAttrs s fuel (some n) (8 * k) = .ok (firstShown n props, 8 * (k + (firstBytes n props).length))
  | .nil, n, fuel, k, hn, hg, hp, hf => by
    simp only [AmfProps.count, propsSize] at hn hf
    obtain ⟨fuel, rfl⟩ : ∃ f, fuel = f + 1 := ⟨fuel - 1, by omega⟩
    obtain rfl : n = 0 := by omega
    rw [readAttrs, if_pos rfl]
    rfl
  | .cons key v rest, 0, fuel, k, hn, hg, hp, hf => by
    simp only [propsSize] at hf
    obtain ⟨fuel, rfl⟩ : ∃ f, fuel = f + 1 := ⟨fuel - 1, by omega⟩
    rw [readAttrs, if_pos rfl]
    rfl
  | .cons key v rest, n + 1, fuel, k, hn, hg, hp, hf => by
    simp only [propsSize, PropsGood, propsBytes, AmfProps.count] at hn hg hp hf
    obtain ⟨fuel, rfl⟩ : ∃ f, fuel = f + 1 := ⟨fuel - 1, by omega⟩
    have hp2 := drop_prefix hp
    rw [List.length_append, beBytes_length, ← Nat.add_assoc] at hp2
    have hp3 := flv_tail hp2
    rw [readAttrs, if_neg (by simp), read_string hs k key hg.2.1 (prefix_left hp)]
    simp only []
    rw [read_byte data s hs (k + 2 + key.length) (amfType v) .big (by simp) (flv_one hp2) _ rfl]
    simp only []
    rw [show 8 * (k + 2 + key.length) + 8 = 8 * (k + 2 + key.length + 1) by omega,
      read_amf hs v fuel (k + 2 + key.length + 1) hg.2.2.1 (prefix_left hp3) (by omega)]
    simp only [Option.map_some, Nat.add_sub_cancel]
    rw [if_neg hg.1, read_first hs rest n fuel _ (by omega) hg.2.2.2 (drop_prefix hp3) (by omega)]
    simp only [List.length_append, beBytes_length, List.length_cons, firstShown, firstBytes]
    exact congrArg (fun x => Except.ok (Items.cons (some key) (amfShown v) (firstShown n rest), x)) (by omega)

/-- C111, violated: the count in front of an array with keys is only a hint, encoders write 0.  The parser
reads one property more than announced; the others are lost and taken for the next value. -/
theorem C111_hint (data : Bytes) (s : InputStream) (hs : stringInputStream data = .ok s) (hint : Nat) (props : AmfProps) (k : Nat)
    (hh : hint < 2 ^ 32) (hg : PropsGood props) (hlow : hint < props.count) (hp : amfBytes (.keyed hint props) <+: data.drop k)
    (fuel : Nat) (hf : propsSize props < fuel) :
    readValue s fuel (8 * k) = .ok (.mixed hint (firstShown (hint + 1) props), 8 * (k + 5 + (firstBytes (hint + 1) props).length)) := by
  obtain ⟨fuel, rfl⟩ : ∃ f, fuel = f + 1 := ⟨fuel - 1, by omega⟩
  have hp1 := flv_tail hp
  rw [amfBody] at hp1
  have hp2 := drop_prefix hp1
  rw [beBytes_length] at hp2
  rw [readValue, read_byte data s hs k (amfType (.keyed hint props)) .big (by simp) (flv_one hp) _ rfl]
  simp only []
  rw [readContent, if_neg (by clear * -; simp [amfType]), if_neg (by clear * -; simp [amfType]), if_neg (by clear * -; simp [amfType]),
      if_neg (by clear * -; simp [amfType]), if_pos (by rfl),
      read_be data s hs 4 (k + 1) hint (by omega) (by omega) (prefix_left hp1) 32 rfl _ (by push_cast; omega)]
  simp only []
  rw [show 8 * k + 8 + 32 = 8 * (k + 1 + 4) by omega, read_first hs props (hint + 1) fuel (k + 1 + 4) hlow hg hp2 (by omega)]

/-- `onMetaData` with a duration of 1.5 and a width of 640, and the hint 2 ... -/
def sampleProps : AmfProps :=
  .cons [100, 117, 114, 97, 116, 105, 111, 110] (.number 0x3ff8000000000000)
    (.cons [119, 105, 100, 116, 104] (.number 0x4084000000000000) .nil)

theorem sampleProps_good : PropsGood sampleProps := by
  refine ⟨by decide, by decide, ?_, by decide, by decide, ?_, trivial⟩ <;> (simp only [AmfGood]; decide)

example (s : InputStream) (hs : stringInputStream (amfBytes (.keyed 2 sampleProps)) = .ok s) :
    readValue s 20 (8 * 0) = .ok (.mixed 2 (.cons (some [100, 117, 114, 97, 116, 105, 111, 110]) (.double 0x3ff8000000000000)
      (.cons (some [119, 105, 100, 116, 104]) (.double 0x4084000000000000) (.cons (some []) .stop .nil))), 8 * 43) := by
  have h := C111_value _ s hs (.keyed 2 sampleProps) 0 ⟨by decide, by decide, sampleProps_good⟩ List.prefix_rfl 20 (by decide)
  rw [show (amfBytes (.keyed 2 sampleProps)).length = 43 by decide +kernel] at h
  exact h

/-- ... and with the hint 0. -/
example (s : InputStream) (hs : stringInputStream (amfBytes (.keyed 0 sampleProps)) = .ok s) :
    readValue s 20 (8 * 0) = .ok (.mixed 0 (.cons (some [100, 117, 114, 97, 116, 105, 111, 110]) (.double 0x3ff8000000000000) .nil), 8 * 24) := by
  have h := C111_hint _ s hs 0 sampleProps 0 (by decide) sampleProps_good (by decide) List.prefix_rfl 20 (by decide)
  rw [show (firstBytes (0 + 1) sampleProps).length = 19 by decide +kernel] at h
  exact h

/-! ## FLV -/

/-- A tag: its type, the time in milliseconds, the body. -/
structure FlvTag where
  tag : UInt8
  time : Nat
  body : Bytes

/-- The bytes of a tag: the high byte of the time comes behind the low ones. -/
def tagBytes (t : FlvTag) : Bytes :=
  [t.tag] ++ beBytes 3 t.body.length ++ beBytes 3 (t.time % 2 ^ 24) ++ [UInt8.ofNat (t.time / 2 ^ 24), 0, 0, 0] ++ t.body

theorem tagBytes_length (t : FlvTag) : (tagBytes t).length = 11 + t.body.length := by
  simp [tagBytes, beBytes_length]; omega

/-- What a body means. -/
inductive FlvBody : UInt8 → Bytes → Content → Prop
  | audio (codec rate : Nat) (wide stereo : Bool) (sound : Bytes) (h1 : codec < 16) (h2 : rate < 4) :
      FlvBody 8 (UInt8.ofNat (16 * codec + 4 * rate + (if wide then 2 else 0) + if stereo then 1 else 0) :: sound)
        (.audio codec rate wide stereo sound.length)
  | video (frame codec : Nat) (picture : Bytes) (h1 : frame < 16) (h2 : codec < 16) :
      FlvBody 9 (UInt8.ofNat (16 * frame + codec) :: picture) (.video frame codec picture.length)
  | values (vs : List Amf) (h0 : vs ≠ []) (hg : ∀ v ∈ vs, AmfGood v) :
      FlvBody 18 (vs.map amfBytes).flatten (.values (vs.map amfShown))
  | raw (tag : UInt8) (b : Bytes) (h1 : tag ≠ 8) (h2 : tag ≠ 9) (h3 : tag ≠ 18) (h0 : b ≠ []) : FlvBody tag b (.raw b.length)
  | empty (tag : UInt8) : FlvBody tag [] .nothing

mutual
theorem amf_size : ∀ v : Amf, amfSize v ≤ (amfBody v).length
  | .number _ => by simp [amfSize, amfBody, beBytes_length]
  | .boolean _ => by simp [amfSize, amfBody]
  | .string _ => by simp [amfSize, amfBody, beBytes_length]; omega
  | .object props => by
    have := props_size props
    simp only [amfSize, amfBody]; omega
  | .keyed _ props => by
    have := props_size props
    simp only [amfSize, amfBody, List.length_append]; omega
  | .strict elems => by
    have := elems_size elems
    simp only [amfSize, amfBody, List.length_append, beBytes_length]; omega
  | .date _ _ => by simp [amfSize, amfBody, beBytes_length]
theorem props_size : ∀ p : AmfProps, propsSize p + 1 ≤ (propsBytes p).length
  | .nil => by simp [propsSize, propsBytes, beBytes_length]
  | .cons key v rest => by
    have h1 := amf_size v
    have h2 := props_size rest
    simp only [propsSize, propsBytes, List.length_append, List.length_cons, beBytes_length]; omega
theorem elems_size : ∀ e : AmfElems, elemsSize e ≤ (elemsBytes e).length + 1
  | .nil => by simp [elemsSize]
  | .cons v rest => by
    have h1 := amf_size v
    have h2 := elems_size rest
    simp only [elemsSize, elemsBytes, List.length_append, List.length_cons]; omega
end

theorem read_entries {data : Bytes} {s : InputStream} (hs : stringInputStream data = .ok s) (vs : List Amf)
    (hg : ∀ v ∈ vs, AmfGood v) : ∀ (k inner fuel : Nat), (vs.map amfBytes).flatten <+: data.drop k →
      ((vs.map amfBytes).flatten).length ≤ inner → vs.length < fuel →
      readEntries s inner fuel (8 * (k + ((vs.map amfBytes).flatten).length)) (8 * k) = .ok (vs.map amfShown) := by
  induction vs with
  | nil =>
    intro k inner fuel hp hi hf
    obtain ⟨fuel, rfl⟩ : ∃ f, fuel = f + 1 := ⟨fuel - 1, by simp at hf; omega⟩
    rw [readEntries, if_neg (by simp)]
    rfl
  | cons v vs ih =>
    intro k inner fuel hp hi hf
    rw [List.length_cons] at hf
    obtain ⟨fuel, rfl⟩ : ∃ f, fuel = f + 1 := ⟨fuel - 1, by omega⟩
    rw [List.map_cons, List.flatten_cons] at hp hi ⊢
    rw [List.length_append] at hi ⊢
    have hl : (amfBytes v).length = (amfBody v).length + 1 := by rw [amfBytes, List.length_cons]
    have := amf_size v
    rw [readEntries, if_pos (by omega), C111_value data s hs v k (hg v (by simp)) (prefix_left hp) inner (by omega)]
    simp only []
    rw [show 8 * (k + ((amfBytes v).length + ((vs.map amfBytes).flatten).length)) =
      8 * (k + (amfBytes v).length + ((vs.map amfBytes).flatten).length) by omega,
      ih (fun x hx => hg x (by simp [hx])) _ inner fuel (drop_prefix hp) (by omega) (by omega)]
    rfl

theorem entries_length (vs : List Amf) : vs.length ≤ ((vs.map amfBytes).flatten).length := by
  induction vs with
  | nil => simp
  | cons v vs ih =>
    rw [List.map_cons, List.flatten_cons, List.length_append, List.length_cons, amfBytes, List.length_cons]
    omega

theorem one_byte (v : Nat) (h : v < 256) : ofBytesBE [UInt8.ofNat v] = v := by
  simp [ofBytesBE]; omega

theorem read_body {data : Bytes} {s : InputStream} (hs : stringInputStream data = .ok s) (tag : UInt8) (b : Bytes) (c : Content)
    (h : FlvBody tag b c) (k fuel : Nat) (hp : b <+: data.drop k) (hf : b.length < fuel) :
    readBody s fuel tag.toNat b.length (8 * k) = .ok c := by
  cases h with
  | audio codec rate wide stereo sound h1 h2 =>
    have hlt : 16 * codec + 4 * rate + (if wide then 2 else 0) + (if stereo then 1 else 0) < 256 := by
      cases wide <;> cases stereo <;> simp <;> omega
    have r1 := readBits_mid data s hs k 0 4 _ (flv_one hp) (by simp) (by simp) ((8 * k : Nat) : Int) rfl
    have r2 := readBits_mid data s hs k 4 2 _ (flv_one hp) (by simp) (by simp) ((8 * k + 4 : Nat) : Int) rfl
    have r3 := readBits_mid data s hs k 6 1 _ (flv_one hp) (by simp) (by simp) ((8 * k + 6 : Nat) : Int) rfl
    have r4 := readBits_mid data s hs k 7 1 _ (flv_one hp) (by simp) (by simp) ((8 * k + 7 : Nat) : Int) rfl
    rw [one_byte _ hlt, List.length_singleton] at r1 r2 r3 r4
    rw [readBody, if_neg (by simp), if_pos (by decide), r1]
    simp only [bind, Except.bind]
    rw [r2]
    simp only []
    rw [r3]
    simp only []
    rw [r4]
    simp only [List.length_cons, Nat.add_sub_cancel]
    have e1 : (16 * codec + 4 * rate + (if wide then 2 else 0) + (if stereo then 1 else 0)) / 2 ^ (8 * 1 - 0 - 4) % 2 ^ 4 = codec := by
      cases wide <;> cases stereo <;> norm_num <;> omega
    have e2 : (16 * codec + 4 * rate + (if wide then 2 else 0) + (if stereo then 1 else 0)) / 2 ^ (8 * 1 - 4 - 2) % 2 ^ 2 = rate := by
      cases wide <;> cases stereo <;> norm_num <;> omega
    have e3 : (16 * codec + 4 * rate + (if wide then 2 else 0) + (if stereo then 1 else 0)) / 2 ^ (8 * 1 - 6 - 1) % 2 ^ 1 =
        if wide then 1 else 0 := by
      cases wide <;> cases stereo <;> norm_num <;> omega
    have e4 : (16 * codec + 4 * rate + (if wide then 2 else 0) + (if stereo then 1 else 0)) / 2 ^ (8 * 1 - 7 - 1) % 2 ^ 1 =
        if stereo then 1 else 0 := by
      cases wide <;> cases stereo <;> norm_num <;> omega
    rw [e1, e2, e3, e4]
    cases wide <;> cases stereo <;> rfl
  | video frame codec picture h1 h2 =>
    have r1 := readBits_mid data s hs k 0 4 _ (flv_one hp) (by simp) (by simp) ((8 * k : Nat) : Int) rfl
    have r2 := readBits_mid data s hs k 4 4 _ (flv_one hp) (by simp) (by simp) ((8 * k + 4 : Nat) : Int) rfl
    rw [one_byte _ (by omega), List.length_singleton] at r1 r2
    rw [readBody, if_neg (by simp), if_neg (by decide), if_pos (by decide), r1]
    simp only [bind, Except.bind]
    rw [r2]
    simp only [List.length_cons, Nat.add_sub_cancel]
    have e1 : (16 * frame + codec) / 2 ^ (8 * 1 - 0 - 4) % 2 ^ 4 = frame := by norm_num; omega
    have e2 : (16 * frame + codec) / 2 ^ (8 * 1 - 4 - 4) % 2 ^ 4 = codec := by norm_num; omega
    rw [e1, e2]
  | values vs h0 hg =>
    have hl := entries_length vs
    have h1 : 0 < vs.length := List.length_pos_of_ne_nil h0
    rw [readBody, if_neg (by omega), if_neg (by decide), if_neg (by decide), if_pos (by decide),
      show 8 * k + ((vs.map amfBytes).flatten).length * 8 = 8 * (k + ((vs.map amfBytes).flatten).length) by omega,
      read_entries hs vs hg k fuel fuel hp (by omega) (by omega)]
    rfl
  | raw _ _ h1 h2 h3 h0 =>
    have e : ∀ x : UInt8, tag ≠ x → tag.toNat ≠ x.toNat := fun x hx h => hx (UInt8.toNat_inj.1 h)
    rw [readBody, if_neg (fun h => h0 (List.eq_nil_of_length_eq_zero h)), if_neg (show tag.toNat ≠ 8 from e 8 h1),
      if_neg (show tag.toNat ≠ 9 from e 9 h2), if_neg (show tag.toNat ≠ 18 from e 18 h3)]
  | empty => rw [readBody, if_pos (by rfl)]

/-- C112: a tag has its type, size, content and the time modulo 2^24. -/
theorem C112_tag (data : Bytes) (s : InputStream) (hs : stringInputStream data = .ok s) (t : FlvTag) (c : Content)
    (h : FlvBody t.tag t.body c) (hb : t.body.length < 2 ^ 24) (k fuel : Nat) (hp : tagBytes t <+: data.drop k)
    (hf : t.body.length < fuel) : readTag s fuel (8 * k) = .ok ⟨8 * k, t.tag.toNat, t.body.length, t.time % 2 ^ 24, c⟩ := by
  have hp' : [[t.tag], beBytes 3 t.body.length, beBytes 3 (t.time % 2 ^ 24), [UInt8.ofNat (t.time / 2 ^ 24), 0, 0, 0], t.body].flatten
      <+: data.drop k := by simpa [tagBytes] using hp
  rw [readTag, read_byte data s hs k t.tag .big (by simp) (record_part _ 0 _ rfl _ (by simp) hp') _ rfl]
  simp only [bind, Except.bind]
  rw [read_be data s hs 3 (k + 1) t.body.length (by omega) (by omega) (record_part _ 1 _ rfl _ (by simp) hp') 24 rfl _
    (by push_cast; omega)]
  simp only []
  rw [read_be data s hs 3 (k + 4) (t.time % 2 ^ 24) (by omega) (Nat.mod_lt _ (by decide)) (record_part _ 2 _ rfl _ (by simp [beBytes_length]) hp')
    24 rfl _ (by push_cast; omega)]
  simp only []
  rw [show 8 * k + 88 = 8 * (k + 11) by omega,
    read_body hs t.tag t.body c h (k + 11) fuel (record_part _ 4 _ rfl _ (by simp [beBytes_length]) hp') hf]

/-- C112, violated: after 4 hours and 40 minutes the time is wrong. -/
theorem C112_long_time (data : Bytes) (s : InputStream) (hs : stringInputStream data = .ok s) (t : FlvTag) (c : Content)
    (h : FlvBody t.tag t.body c) (hb : t.body.length < 2 ^ 24) (k fuel : Nat) (hp : tagBytes t <+: data.drop k)
    (hf : t.body.length < fuel) (hlong : 2 ^ 24 ≤ t.time) : ∃ r, readTag s fuel (8 * k) = .ok r ∧ r.time < t.time :=
  ⟨_, C112_tag data s hs t c h hb k fuel hp hf, Nat.lt_of_lt_of_le (Nat.mod_lt t.time (by decide)) hlong⟩

/-- Tags one after the other, each with the number behind it. -/
inductive FlvTags : Nat → List (Tag × Nat) → Bytes → Prop
  | nil (k : Nat) : FlvTags k [] []
  | cons (k : Nat) (t : FlvTag) (c : Content) (prev : Nat) (ts : List (Tag × Nat)) (rest : Bytes) (h : FlvBody t.tag t.body c)
      (hb : t.body.length < 2 ^ 24) (ht : t.time < 2 ^ 24) (hv : prev < 2 ^ 32) (hr : FlvTags (k + 15 + t.body.length) ts rest) :
      FlvTags k ((⟨8 * k, t.tag.toNat, t.body.length, t.time, c⟩, prev) :: ts) (tagBytes t ++ beBytes 4 prev ++ rest)

theorem read_tags {data : Bytes} {s : InputStream} (hs : stringInputStream data = .ok s) (k : Nat) (ts : List (Tag × Nat)) (b : Bytes)
    (h : FlvTags k ts b) (hp : b = data.drop k) (hk : k ≤ data.length) (inner fuel : Nat) (hi : data.length < inner)
    (hf : data.length - k < fuel) : readTags s inner fuel (8 * data.length) (8 * k) = .ok ts := by
  induction h generalizing fuel with
  | nil k =>
    have := congrArg List.length hp
    rw [List.length_nil, List.length_drop] at this
    obtain ⟨fuel, rfl⟩ : ∃ f, fuel = f + 1 := ⟨fuel - 1, by omega⟩
    rw [readTags, if_neg (by omega)]
  | cons k t c prev ts rest h hb ht hv hr ih =>
    obtain ⟨fuel, rfl⟩ : ∃ f, fuel = f + 1 := ⟨fuel - 1, by omega⟩
    have hl := congrArg List.length hp
    rw [List.length_append, List.length_append, tagBytes_length, beBytes_length, List.length_drop] at hl
    have hp1 : tagBytes t ++ beBytes 4 prev <+: data.drop k := ⟨rest, hp⟩
    have hp2 := drop_prefix hp1
    rw [tagBytes_length] at hp2
    have hp3 : rest = data.drop (k + 15 + t.body.length) := by
      have e : data.drop (k + 15 + t.body.length) = (data.drop k).drop (15 + t.body.length) := by
        rw [List.drop_drop, Nat.add_assoc]
      have e2 : (tagBytes t ++ beBytes 4 prev).length = 15 + t.body.length := by
        rw [List.length_append, tagBytes_length, beBytes_length]; omega
      rw [e, ← hp, ← e2, List.drop_left]
    rw [readTags, if_pos (by omega), C112_tag data s hs t c h hb k inner (prefix_left hp1) (by omega)]
    simp only []
    rw [read_be data s hs 4 (k + (11 + t.body.length)) prev (by omega) (by omega) hp2 32 rfl _ (by push_cast; omega)]
    simp only []
    rw [show 8 * k + (11 + t.body.length) * 8 + 32 = 8 * (k + 15 + t.body.length) by omega, ih hp3 (by omega) fuel (by omega),
      Nat.mod_eq_of_lt ht]

/-- The bytes of a file: header, a first number 0, and the tags. -/
def flvBytes (version : UInt8) (audio video : Bool) (first : Nat) (tags : Bytes) : Bytes :=
  [70, 76, 86, version, UInt8.ofNat ((if audio then 4 else 0) + if video then 1 else 0)] ++ beBytes 4 9 ++ beBytes 4 first ++ tags

theorem flvBytes_drop (version : UInt8) (audio video : Bool) (first : Nat) (tags : Bytes) :
    (flvBytes version audio video first tags).drop 13 = tags ∧ (flvBytes version audio video first tags).length = 13 + tags.length := by
  have hl : ([70, 76, 86, version, UInt8.ofNat ((if audio then 4 else 0) + if video then 1 else 0)] ++ beBytes 4 9 ++ beBytes 4 first : Bytes).length = 13 := by
    simp [beBytes_length]
  constructor
  · rw [flvBytes, ← hl, List.drop_left]
  · rw [flvBytes, List.length_append, hl]

/-- C112: a file whose header has not the size 9 is refused. -/
theorem C112_refused (version flags : UInt8) (size : Nat) (h : size < 2 ^ 32) (h9 : size ≠ 9) (rest : Bytes) (s : InputStream)
    (hs : stringInputStream ([70, 76, 86] ++ ([version, flags] ++ (beBytes 4 size ++ rest))) = .ok s) : valid s = .ok false := by
  have hp' : [[70, 76, 86], [version, flags], beBytes 4 size, rest].flatten <+:
      ([70, 76, 86] ++ ([version, flags] ++ (beBytes 4 size ++ rest))).drop 0 := ⟨[], by simp⟩
  have r1 := read_be _ s hs 4 5 size (by omega) h (record_part _ 2 _ rfl _ (by simp) hp') 32 rfl 40 rfl
  have r0 : readBytes s 0 3 = .ok [70, 76, 86] := readBytes_prefix _ s hs 0 [70, 76, 86] (record_part _ 0 _ rfl _ (by simp) hp')
  rw [valid, r0]
  simp only [bind, Except.bind]
  rw [if_neg (by decide), r1]
  simp only [h9, decide_false]

/-- C112: a file is accepted and divided into its tags, with the numbers between them. -/
theorem C112_file (version : UInt8) (audio video : Bool) (first : Nat) (tags : Bytes) (ts : List (Tag × Nat)) (h : FlvTags 13 ts tags)
    (s : InputStream) (hs : stringInputStream (flvBytes version audio video first tags) = .ok s) (fuel : Nat)
    (hf : 13 + tags.length < fuel) :
    valid s = .ok true ∧ readFile s fuel (8 * (flvBytes version audio video first tags).length)
      = .ok (⟨version.toNat, audio, video, 9⟩, ts) := by
  obtain ⟨data, hdata⟩ : ∃ d, flvBytes version audio video first tags = d := ⟨_, rfl⟩
  obtain ⟨d1, d2⟩ := flvBytes_drop version audio video first tags
  have hp' : [[70, 76, 86], [version], [UInt8.ofNat ((if audio then 4 else 0) + if video then 1 else 0)], beBytes 4 9, beBytes 4 first, tags].flatten
      <+: data.drop 0 := by rw [← hdata]; simp [flvBytes]
  rw [hdata] at hs d1 d2 ⊢
  have r0 : readBytes s 0 3 = .ok [70, 76, 86] := readBytes_prefix data s hs 0 [70, 76, 86] (record_part _ 0 _ rfl _ (by simp) hp')
  have r1 := read_byte data s hs 3 version .big (by simp) (record_part _ 1 _ rfl _ (by simp) hp') 24 rfl
  have hflag := record_part _ 2 _ rfl 4 (by simp) hp'
  have r2 := readBits_mid data s hs 4 5 1 _ hflag (by simp) (by simp) 37 rfl
  have r3 := readBits_mid data s hs 4 7 1 _ hflag (by simp) (by simp) 39 rfl
  have r4 := read_be data s hs 4 5 9 (by omega) (by omega) (record_part _ 3 _ rfl _ (by simp) hp') 32 rfl 40 rfl
  have r5 := read_tags hs 13 ts tags h d1.symm (by omega) fuel fuel (by omega) (by omega)
  constructor
  · rw [valid, r0]
    simp only [bind, Except.bind]
    rw [if_neg (by decide), r4]
    rfl
  · have hh : readHeader s = .ok ⟨version.toNat, audio, video, 9⟩ := by
      rw [readHeader, r1]
      simp only [bind, Except.bind]
      rw [r2]
      simp only []
      rw [r3]
      simp only []
      rw [r4]
      simp only []
      cases audio <;> cases video <;> rfl
    rw [readFile, hh]
    simp only [bind, Except.bind]
    rw [show (104 : Nat) = 8 * 13 by rfl, r5]

/-! ## Metadata -/

/-- C113: sample rate, bits and channels are those of the first audio tag. -/
theorem C113_audio (before after : List Tag) (t : Tag) (codec rate : Nat) (wide stereo : Bool) (size : Nat)
    (hb : ∀ x ∈ before, x.tag ≠ 8) (ht : t.tag = 8) (hc : t.content = .audio codec rate wide stereo size) (hr : rate < 4) :
    audioOf (before ++ t :: after) = some (some ([5512, 11025, 22050, 44100].getD rate 0), if wide then 16 else 8, if stereo then 2 else 1) := by
  induction before with
  | nil =>
    rw [List.nil_append, audioOf, if_pos ht, hc]
    simp only []
    rcases (by omega : rate = 0 ∨ rate = 1 ∨ rate = 2 ∨ rate = 3) with rfl | rfl | rfl | rfl <;> rfl
  | cons x before ih =>
    rw [List.cons_append, audioOf, if_neg (hb x (by simp)), ih (fun y hy => hb y (by simp [hy]))]

/-- What the properties of `onMetaData` set. -/
inductive PropsSet : AmfProps → List (String × Value) → Prop
  | nil : PropsSet .nil []
  | known (key : Bytes) (name : String) (v : Amf) (rest : AmfProps) (l : List (String × Value)) (h : entryKey key = some name)
      (hr : PropsSet rest l) : PropsSet (.cons key v rest) ((name, amfShown v) :: l)
  | other (key : Bytes) (v : Amf) (rest : AmfProps) (l : List (String × Value)) (h : entryKey key = none)
      (hr : PropsSet rest l) : PropsSet (.cons key v rest) l

theorem items_set (props : AmfProps) (l : List (String × Value)) (h : PropsSet props l) : itemEntries (propsShown props) = l := by
  induction h with
  | nil => rfl
  | known key name v rest l h hr ih => simp only [propsShown, itemEntries, Option.bind_some, h, ih]
  | other key v rest l h hr ih => simp only [propsShown, itemEntries, Option.bind_some, h, ih]

/-- The texts of the keys. -/
theorem entry_keys :
    [("duration", "duration"), ("creator", "producer"), ("audiosamplerate", "sample_rate"), ("framerate", "frame_rate"),
      ("metadatacreator", "producer"), ("metadatadate", "creation_date"), ("width", "width"), ("height", "height")].all
      (fun x => entryKey x.1.toUTF8.toList == some x.2) = true := by decide +kernel

/-- C113: the properties of the array in the first tag of metadata are told, with their values and in order. -/
theorem C113_values (before after : List Tag) (t : Tag) (name : Amf) (hint : Nat) (props : AmfProps) (more : List Amf)
    (l : List (String × Value)) (hb : ∀ x ∈ before, x.tag ≠ 18) (ht : t.tag = 18)
    (hc : t.content = .values ((name :: .keyed hint props :: more).map amfShown)) (hl : PropsSet props l) :
    entriesOf (before ++ t :: after) = l := by
  induction before with
  | nil =>
    rw [List.nil_append, entriesOf, if_pos ht, hc]
    simp only [List.map_cons, List.getElem?_cons_succ, List.getElem?_cons_zero, amfShown, valueEntries]
    exact items_set props l hl
  | cons x before ih =>
    rw [List.cons_append, entriesOf, if_neg (hb x (by simp)), ih (fun y hy => hb y (by simp [hy]))]

/-- C113, violated: the same properties written as an object are not told. -/
theorem C113_object (before after : List Tag) (t : Tag) (name : Amf) (props : AmfProps) (more : List Amf)
    (hb : ∀ x ∈ before, x.tag ≠ 18) (ht : t.tag = 18)
    (hc : t.content = .values ((name :: .object props :: more).map amfShown)) : entriesOf (before ++ t :: after) = [] := by
  induction before with
  | nil =>
    rw [List.nil_append, entriesOf, if_pos ht, hc]
    rfl
  | cons x before ih =>
    rw [List.cons_append, entriesOf, if_neg (hb x (by simp)), ih (fun y hy => hb y (by simp [hy]))]

/-- A file with metadata and a tag of sound (MP3, 22050 Hz, 16 bits, stereo). -/
def sampleMeta : Bytes := amfBytes (.string [111, 110]) ++ amfBytes (.keyed 2 sampleProps)

def sampleFlv : Bytes :=
  tagBytes ⟨18, 0, sampleMeta⟩ ++ beBytes 4 59 ++ (tagBytes ⟨8, 40, [0x2b, 1, 2]⟩ ++ beBytes 4 14 ++ [])

example (s : InputStream) (hs : stringInputStream (flvBytes 1 true false 0 sampleFlv) = .ok s) :
    ∃ h ts, readFile s 200 (8 * (flvBytes 1 true false 0 sampleFlv).length) = .ok (h, ts) ∧
      audioOf (ts.map (·.1)) = some (some 22050, 16, 2) ∧
      entriesOf (ts.map (·.1)) = [("duration", .double 0x3ff8000000000000), ("width", .double 0x4084000000000000)] := by
  have hl : sampleMeta.length = 48 := by decide +kernel
  have hv : FlvBody 18 sampleMeta (.values ([.string [111, 110], .keyed 2 sampleProps].map amfShown)) := by
    have := FlvBody.values [.string [111, 110], .keyed 2 sampleProps] (by simp) (by
      intro v hv
      simp only [List.mem_cons, List.not_mem_nil, or_false] at hv
      rcases hv with rfl | rfl
      · exact (by decide : ([111, 110] : Bytes).length < 2 ^ 16)
      · exact ⟨by decide, by decide, sampleProps_good⟩)
    exact this
  have ha : FlvBody 8 [0x2b, 1, 2] (.audio 2 2 true true 2) := FlvBody.audio 2 2 true true [1, 2] (by decide) (by decide)
  have hts : FlvTags 13 _ sampleFlv :=
    .cons 13 ⟨18, 0, sampleMeta⟩ _ 59 _ _ hv (by rw [hl]; decide) (by decide) (by decide)
      (.cons _ ⟨8, 40, [0x2b, 1, 2]⟩ _ 14 _ _ ha (by decide) (by decide) (by decide) (.nil _))
  obtain ⟨-, r⟩ := C112_file 1 true false 0 sampleFlv _ hts s hs 200 (by decide +kernel)
  exact ⟨_, _, r, rfl, rfl⟩

end Hachoir.Props

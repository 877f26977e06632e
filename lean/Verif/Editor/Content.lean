import Verif.Editor.WriteLemmas

/-!
# What an edited tree stands for (specification), and the invariant of edited trees
-/

set_option linter.unusedVariables false
set_option linter.unusedSimpArgs false

namespace Hachoir.Editor
open Hachoir Hachoir.Stream Spec

/-! ## Specification -/

/-- The bits of a value in a field of the given kind and size: numbers in binary (signed
ones in two's complement), strings as they are, with their suffix or length prefix. -/
def valueBits (e : Endian) (kind : Kind) (size : Nat) : Value → List Bool
  | .int v => toBits e size (v % (2 ^ size : Nat)).toNat
  | .bytes b =>
    match kind with
    | .suffixed s => dataBits e b ++ dataBits e s
    | .pascal p => toBits e (8 * p) b.length ++ dataBits e b
    | _ => dataBits e b

/-- The content of a field: the new value, or the bits of the file. -/
def fieldBits (e : Endian) (data : Bytes) (inp : Inp) (f : EField) : List Bool :=
  match f.altered, f.value with
  | true, some v => valueBits e f.kind f.fixedSize v
  | _, _ =>
    match inputGet inp f.name with
    | .ok o => slice (dataBits e data) o.addr o.size
    | .error _ => []

/-- The content of an inserted field: the contents of its items. -/
def newContent (e : Endian) (data : Bytes) (n : New) : List Bool :=
  n.items.flatMap (fieldBits e data none)

mutual
/-- The content of an edited tree: the contents of the fields in edited order. -/
def content (e : Endian) (data : Bytes) (inp : Inp) : Edit → List Bool
  | .field f => fieldBits e data inp f
  | .set _ _ _ _ orig kids deleted inserted =>
    (sequence e data (some orig) deleted inserted kids).flatMap (·.2)

/-- The fields in edited order, with their contents: before each original field the
fields inserted there, the original field unless deleted, the fields inserted at the end. -/
def sequence (e : Endian) (data : Bytes) (inp : Inp) (deleted : List String) (inserted : Inserted) :
    List Edit → List (String × List Bool)
  | [] => (inserted.slot none).map fun n => (n.name, newContent e data n)
  | k :: ks =>
    (inserted.slot (some k.name)).map (fun n => (n.name, newContent e data n)) ++
      (if k.name ∈ deleted then [] else [(k.name, content e data inp k)]) ++
      sequence e data inp deleted inserted ks
end

/-! ## Invariant -/

/-- The value is one the field can hold. -/
def Fits (f : EField) : Prop :=
  match f.kind, f.value with
  | .integer signed, some (.int v) =>
    f.fixedSize % 8 = 0 ∧ (signed = false → 0 ≤ v ∧ v < (2 ^ f.fixedSize : Nat))
  | .bits, some (.int v) => 0 ≤ v ∧ v < (2 ^ f.fixedSize : Nat)
  | .mac32, some (.int v) => 0 ≤ v ∧ v < (2 ^ f.fixedSize : Nat)
  | .bytes, some (.bytes _) => True
  | .suffixed _, some (.bytes _) => True
  | .fixed, some (.bytes _) => True
  | .pascal p, some (.bytes b) => b.length < 256 ^ p
  | .character, some (.bytes b) => b.length = 1 ∧ f.fixedSize = 8
  | _, _ => False

/-- An unedited field has the size of the original one. -/
def Fresh (f : EField) (o : Orig) : Prop :=
  f.value = none ∧
    match f.kind with
    | .integer _ | .bits | .character | .mac32 => f.fixedSize = o.size
    | _ => True

/-- Side conditions on fixed sizes that edits rely on. -/
def SizeOk (f : EField) : Prop :=
  match f.kind with
  | .character => f.fixedSize = 8
  | .mac32 => f.fixedSize = 32
  | _ => True

/-- A new field that carries a value, marked as such. -/
def GoodNew (n : New) : Prop :=
  n.items ≠ [] ∧ (n.isSet = false → ∃ f, n.items = [f]) ∧ ∀ f ∈ n.items, f.altered = true ∧ Fits f

/-- The fields follow each other from `a` to `b`. -/
def Tile : List Orig → Nat → Nat → Prop
  | [], a, b => a = b
  | o :: os, a, b => o.addr = a ∧ Tile os (a + o.size) b

mutual
/-- Invariant of the editable object for the original field `o`. -/
def Good (e : Endian) (data : Bytes) (inp : Inp) (o : Orig) : Edit → Prop
  | .field f => f.name = o.name ∧ inputGet inp f.name = .ok o ∧ o.addr + o.size ≤ 8 * data.length ∧ SizeOk f ∧
      (f.altered = false → Fresh f o) ∧ (f.altered = true → Fits f)
  | .set n a z e' orig kids deleted inserted =>
      o = ⟨n, a, z⟩ ∧ e' = e ∧ a + z ≤ 8 * data.length ∧ (orig.map (·.name)).Nodup ∧ Tile orig a (a + z) ∧
        GoodKids e data (some orig) orig kids ∧ ∀ p ∈ inserted, ∀ n ∈ p.2, GoodNew n

/-- The editable fields belong to the original ones. -/
def GoodKids (e : Endian) (data : Bytes) (inp : Inp) : List Orig → List Edit → Prop
  | [], [] => True
  | o :: os, k :: ks => Good e data inp o k ∧ GoodKids e data inp os ks
  | _, _ => False
end

/-- The inserted fields written with a given editable field. -/
def unsignedEdit (f : EField) : Prop := f.altered = true → f.kind ≠ .integer true

mutual
/-- No signed integer was edited or inserted. -/
def NoSigned : Edit → Prop
  | .field f => unsignedEdit f
  | .set _ _ _ _ _ kids _ inserted => NoSignedKids kids ∧ ∀ p ∈ inserted, ∀ n ∈ p.2, ∀ f ∈ n.items, unsignedEdit f

/-- The same for several. -/
def NoSignedKids : List Edit → Prop
  | [] => True
  | k :: ks => NoSigned k ∧ NoSignedKids ks
end

theorem Good.name {e : Endian} {data : Bytes} {inp : Inp} {o : Orig} {t : Edit} (h : Good e data inp o t) :
    t.name = o.name := by
  cases t with
  | field f => simp only [Good] at h; exact h.1
  | set => simp only [Good] at h; simp [h.1, Edit.name]

theorem slot_mem {ins : Inserted} {key : Option String} {n : New} (h : n ∈ ins.slot key) :
    ∃ p ∈ ins, n ∈ p.2 := by
  unfold Inserted.slot Inserted.at? at h
  cases hf : ins.find? (fun p => p.1 == key) with
  | none => simp [hf] at h
  | some p =>
    simp only [hf, Option.map_some, Option.getD_some] at h
    exact ⟨p, List.mem_of_find?_eq_some hf, h⟩

/-! ## Sizes -/

theorem length_valueBits {e : Endian} {f : EField} {v : Value} (hv : f.value = some v) (h : Fits f) (hs : SizeOk f)
    (inp : Inp) : fieldSize inp f = .ok (valueBits e f.kind f.fixedSize v).length := by
  obtain ⟨name, kind, fs, value, altered⟩ := f
  simp only at hv
  subst hv
  cases kind <;> cases v <;>
    simp only [Fits] at h <;>
    simp [fieldSize, valueBits, valueLen, length_toBits, length_dataBits, Except.map] <;> omega

theorem fieldSize_spec {e : Endian} {data : Bytes} {inp : Inp} {o : Orig} {f : EField}
    (h : Good e data inp o (.field f)) : fieldSize inp f = .ok (fieldBits e data inp f).length := by
  simp only [Good] at h
  obtain ⟨h1, h2, h3, h4, h5, h6⟩ := h
  unfold fieldBits
  cases ha : f.altered with
  | true =>
    have hf := h6 ha
    cases hv : f.value with
    | none =>
      exfalso
      unfold Fits at hf
      rw [hv] at hf
      cases hk : f.kind <;> simp [hk] at hf
    | some v => exact length_valueBits hv hf h4 inp
  | false =>
    obtain ⟨hv, hk⟩ := h5 ha
    simp only [h2]
    rw [length_slice _ _ _ (by rw [length_dataBits]; exact h3)]
    unfold fieldSize
    cases hkk : f.kind <;> simp [hkk] at hk <;> simp [hv, h2, hk, Except.map]

theorem newItem_size {e : Endian} {data : Bytes} {inp : Inp} {f : EField} (ha : f.altered = true) (hf : Fits f) :
    fieldSize inp f = .ok (fieldBits e data none f).length := by
  have hs : SizeOk f ∨ f.kind = .mac32 := by
    unfold SizeOk
    unfold Fits at hf
    cases hk : f.kind with
    | character =>
      rw [hk] at hf
      cases hv : f.value with
      | none => simp [hv] at hf
      | some v => cases v <;> simp [hv] at hf; simp [hf.2]
    | mac32 => right; rfl
    | _ => left; trivial
  unfold fieldBits
  cases hv : f.value with
  | none =>
    exfalso
    unfold Fits at hf
    rw [hv] at hf
    cases hk : f.kind <;> simp [hk] at hf
  | some v =>
    simp only [ha]
    rcases hs with hs | hs
    · exact length_valueBits hv hf hs inp
    · cases v with
      | int i => simp [fieldSize, hs, valueBits, length_toBits]
      | bytes b => simp [Fits, hs, hv] at hf

theorem sumSizes_ok (l : List Nat) : sumSizes (l.map .ok) = .ok l.sum := by
  induction l with
  | nil => rfl
  | cons a l ih => simp [sumSizes, ih, Except.map]

theorem sum_items {e : Endian} {data : Bytes} (inp : Inp) (l : List EField)
    (h : ∀ f ∈ l, f.altered = true ∧ Fits f) :
    sumSizes (l.map (fieldSize inp)) = .ok (l.flatMap (fieldBits e data none)).length := by
  induction l with
  | nil => rfl
  | cons f l ih =>
    obtain ⟨h1, h2⟩ := h f (by simp)
    have := ih fun g hg => h g (by simp [hg])
    simp [sumSizes, newItem_size (e := e) (data := data) (inp := inp) h1 h2, this, Except.map]

theorem newSize_spec {e : Endian} {data : Bytes} (inp : Inp) (n : New) (h : GoodNew n) :
    newSize inp n = .ok (newContent e data n).length := by
  obtain ⟨h1, h2, h3⟩ := h
  unfold newSize newContent
  cases hs : n.isSet with
  | true => simp [h1, sum_items none n.items h3 (e := e) (data := data)]
  | false =>
    obtain ⟨f, hf⟩ := h2 hs
    obtain ⟨h4, h5⟩ := h3 f (by simp [hf])
    simp [hf, newItem_size (e := e) (data := data) (inp := inp) h4 h5]

/-! ## Unaltered parts -/

mutual
theorem unaltered_content {e : Endian} {data : Bytes} {inp : Inp} {o : Orig} : (t : Edit) →
    Good e data inp o t → isAltered t = false → content e data inp t = slice (dataBits e data) o.addr o.size
  | .field f => by
    intro h ha
    simp only [Good] at h
    obtain ⟨h1, h2, h3, h4, h5, h6⟩ := h
    simp only [isAltered] at ha
    obtain ⟨hv, _⟩ := h5 ha
    simp [content, fieldBits, ha, h2]
  | .set n a z e' orig kids deleted inserted => by
    intro h ha
    simp only [Good] at h
    obtain ⟨h1, h2, h3, h4, h5, h6, h7⟩ := h
    simp only [isAltered, Bool.or_eq_false_iff, decide_eq_false_iff_not, ne_eq, not_not] at ha
    obtain ⟨⟨ha1, ha2⟩, ha3⟩ := ha
    subst ha1; subst ha2; subst h1
    have := unaltered_kids kids orig (some orig) a (a + z) h6 ha3 h5
    simp only [content]
    rw [this.2]
    congr 1; omega

theorem unaltered_kids {e : Endian} {data : Bytes} : (kids : List Edit) → (os : List Orig) → (inp : Inp) → (a b : Nat) →
    GoodKids e data inp os kids → anyAltered kids = false → Tile os a b →
    a ≤ b ∧ (sequence e data inp [] [] kids).flatMap (·.2) = slice (dataBits e data) a (b - a)
  | [], [], inp, a, b => by
    intro _ _ ht
    simp only [Tile] at ht
    subst ht
    simp [sequence, Inserted.slot, Inserted.at?, slice]
  | [], _ :: _, inp, a, b => by intro h; simp [GoodKids] at h
  | _ :: _, [], inp, a, b => by intro h; simp [GoodKids] at h
  | k :: ks, o :: os, inp, a, b => by
    intro h ha ht
    simp only [GoodKids] at h
    simp only [anyAltered, Bool.or_eq_false_iff] at ha
    simp only [Tile] at ht
    have i1 := unaltered_content k h.1 ha.1
    have i2 := unaltered_kids ks os inp (a + o.size) b h.2 ha.2 ht.2
    refine ⟨by omega, ?_⟩
    simp only [sequence, Inserted.slot, Inserted.at?, List.find?_nil, Option.map_none, Option.getD_none,
      List.map_nil, List.nil_append, List.not_mem_nil, if_false, List.cons_append, List.flatMap_cons, i1, i2.2,
      ht.1]
    rw [slice_append]
    congr 1; omega
end

theorem flatMap_map_new {e : Endian} {data : Bytes} (l : List New) :
    ((l.map fun n => (n.name, newContent e data n)).flatMap (·.2)) = l.flatMap (newContent e data) := by
  induction l with
  | nil => rfl
  | cons n l ih => simp [ih]

/-- Names and contents, as names and sizes. -/
def sized (l : List (String × List Bool)) : List (String × Except PyErr Nat) :=
  l.map fun p => (p.1, .ok p.2.length)

theorem sized_sum (l : List (String × List Bool)) :
    sumSizes ((sized l).map (·.2)) = .ok (l.flatMap (·.2)).length := by
  induction l with
  | nil => rfl
  | cons p l ih => simp [sized, sumSizes] at *; rw [ih]; simp [Except.map]

theorem news_sized {e : Endian} {data : Bytes} (inp : Inp) (ins : Inserted) (key : Option String)
    (h : ∀ p ∈ ins, ∀ n ∈ p.2, GoodNew n) :
    ((ins.slot key).map fun n => (n.name, newSize inp n))
      = sized ((ins.slot key).map fun n => (n.name, newContent e data n)) := by
  unfold sized
  rw [List.map_map]
  apply List.map_congr_left
  intro n hn
  obtain ⟨p, hp, hn⟩ := slot_mem hn
  simp [newSize_spec (e := e) (data := data) inp n (h p hp n hn)]

mutual
theorem editSize_spec {e : Endian} {data : Bytes} {inp : Inp} {o : Orig} : (t : Edit) →
    Good e data inp o t → editSize inp t = .ok (content e data inp t).length
  | .field f => by
    intro h
    simp only [editSize, content]
    exact fieldSize_spec h
  | .set n a z e' orig kids deleted inserted => by
    intro h
    by_cases ha : isAltered (.set n a z e' orig kids deleted inserted) = true
    · have hg := h
      simp only [Good] at h
      obtain ⟨h1, h2, h3, h4, h5, h6, h7⟩ := h
      simp only [isAltered] at ha
      simp only [editSize, ha, if_true]
      rw [editItems_spec kids orig (some orig) h6 deleted inserted h7, sized_sum]
      simp [content]
    · have ha : isAltered (.set n a z e' orig kids deleted inserted) = false := by simpa using ha
      have hc := unaltered_content _ h ha
      simp only [Good] at h
      obtain ⟨h1, h2, h3, h4, h5, h6, h7⟩ := h
      rw [hc, h1, length_slice _ _ _ (by rw [length_dataBits]; exact h3)]
      simp only [isAltered] at ha
      simp only [editSize, ha, Bool.false_eq_true, if_false]

theorem editItems_spec {e : Endian} {data : Bytes} : (kids : List Edit) → (os : List Orig) → (inp : Inp) →
    GoodKids e data inp os kids → (deleted : List String) → (inserted : Inserted) →
    (∀ p ∈ inserted, ∀ n ∈ p.2, GoodNew n) →
    editItems inp deleted inserted kids = sized (sequence e data inp deleted inserted kids)
  | [], [], inp => by
    intro _ deleted inserted h7
    simp only [editItems, sequence]
    exact news_sized inp inserted none h7
  | [], _ :: _, inp => by intro h; simp [GoodKids] at h
  | _ :: _, [], inp => by intro h; simp [GoodKids] at h
  | k :: ks, o :: os, inp => by
    intro h deleted inserted h7
    simp only [GoodKids] at h
    have i1 := editSize_spec k h.1
    have i2 := editItems_spec ks os inp h.2 deleted inserted h7
    simp only [editItems, sequence, i2, news_sized (e := e) (data := data) inp inserted (some k.name) h7, i1]
    unfold sized
    simp only [List.map_append]
    congr 1
    congr 1
    split <;> simp
end

/-! ## Writing -/

theorem writeValue_spec {e : Endian} (he : e ≠ .middle) {data : Bytes} {o o' : OutputStream} (ho : OutOk e o)
    {f : EField} {inp : Inp} (ha : f.altered = true) (hf : Fits f) (hu : unsignedEdit f)
    (h : writeValue f e o = .ok o') :
    OutOk e o' ∧ outBits e o' = outBits e o ++ fieldBits e data inp f := by
  obtain ⟨name, kind, fs, value, altered⟩ := f
  simp only at ha
  subst ha
  have hmod : ∀ (v : Int) (n : Nat), 0 ≤ v → v < (2 ^ n : Nat) → (v % (2 ^ n : Nat)).toNat = v.toNat := by
    intro v n h1 h2
    rw [Int.emod_eq_of_lt h1 h2]
  have hbits : ∀ (v : Int), 0 ≤ v → v < (2 ^ fs : Nat) → writeBits o fs v e = .ok o' →
      OutOk e o' ∧ outBits e o' = outBits e o ++ toBits e fs (v % (2 ^ fs : Nat)).toNat := by
    intro v h1 h2 h3
    rw [hmod v fs h1 h2]
    obtain ⟨m, rfl⟩ : ∃ m : Nat, v = m := ⟨v.toNat, by omega⟩
    obtain ⟨o1, e1, e2, e3⟩ := writeBits_spec he ho fs m (by omega)
    rw [e1] at h3; cases h3
    exact ⟨e2, by simpa using e3⟩
  cases kind with
  | integer signed =>
    cases signed with
    | true => exact absurd rfl (hu rfl)
    | false =>
      cases value with
      | none => simp [Fits] at hf
      | some v =>
        cases v with
        | bytes b => simp [Fits] at hf
        | int v =>
          simp only [Fits, true_implies] at hf
          obtain ⟨h8, h1, h2⟩ := hf
          simp only [writeValue] at h
          simp only [fieldBits, valueBits]
          rw [hmod v fs h1 h2]
          obtain ⟨m, rfl⟩ : ∃ m : Nat, v = m := ⟨v.toNat, by omega⟩
          have h3 : m < 256 ^ (fs / 8) := by
            rw [pow256, show 8 * (fs / 8) = fs by omega]; omega
          have := writeInteger_spec he ho m (fs / 8) h3 h
          rw [show 8 * (fs / 8) = fs by omega] at this
          simpa using this
  | bits =>
    cases value with
    | none => simp [Fits] at hf
    | some v =>
      cases v with
      | bytes b => simp [Fits] at hf
      | int v =>
        simp only [Fits] at hf
        exact hbits v hf.1 hf.2 h
  | mac32 =>
    cases value with
    | none => simp [Fits] at hf
    | some v =>
      cases v with
      | bytes b => simp [Fits] at hf
      | int v =>
        simp only [Fits] at hf
        exact hbits v hf.1 hf.2 h
  | bytes =>
    cases value with
    | none => simp [Fits] at hf
    | some v =>
      cases v with
      | int v => simp [Fits] at hf
      | bytes b => exact writeBytes_spec ho b h
  | fixed =>
    cases value with
    | none => simp [Fits] at hf
    | some v =>
      cases v with
      | int v => simp [Fits] at hf
      | bytes b => exact writeBytes_spec ho b h
  | suffixed s =>
    cases value with
    | none => simp [Fits] at hf
    | some v =>
      cases v with
      | int v => simp [Fits] at hf
      | bytes b =>
        simp only [writeValue] at h
        split at h
        · cases h
        · rename_i o1 h1
          obtain ⟨w1, w2⟩ := writeBytes_spec ho b h1
          obtain ⟨w3, w4⟩ := writeBytes_spec w1 s h
          refine ⟨w3, ?_⟩
          rw [w4, w2]
          simp [fieldBits, valueBits]
  | pascal p =>
    cases value with
    | none => simp [Fits] at hf
    | some v =>
      cases v with
      | int v => simp [Fits] at hf
      | bytes b =>
        simp only [writeValue] at h
        split at h <;> cases h
  | character =>
    cases value with
    | none => simp [Fits] at hf
    | some v =>
      cases v with
      | int v => simp [Fits] at hf
      | bytes b =>
        simp only [writeValue] at h
        split at h <;> cases h
  | other =>
    cases value with
    | none => simp [Fits] at hf
    | some v => cases v <;> simp [Fits] at hf

theorem writeField_spec {e : Endian} (he : e ≠ .middle) {data : Bytes} {s : InputStream}
    (hs : stringInputStream data = .ok s) {inp : Inp} {g : Orig} {f : EField}
    (hg : Good e data inp g (.field f)) (hu : unsignedEdit f) {o o' : OutputStream} (ho : OutOk e o)
    (h : writeField s inp e f o = .ok o') :
    OutOk e o' ∧ outBits e o' = outBits e o ++ fieldBits e data inp f := by
  have hsize := fieldSize_spec hg
  simp only [Good] at hg
  obtain ⟨h1, h2, h3, h4, h5, h6⟩ := hg
  unfold writeField at h
  cases ha : f.altered with
  | true =>
    simp only [ha, if_true] at h
    exact writeValue_spec he ho ha (h6 ha) hu h
  | false =>
    have hb : fieldBits e data inp f = slice (dataBits e data) g.addr g.size := by
      simp [fieldBits, ha, h2]
    rw [hb, length_slice _ _ _ (by rw [length_dataBits]; exact h3)] at hsize
    simp only [ha, Bool.false_eq_true, if_false, hsize, h2] at h
    rw [hb]
    split at h
    · exact copyBits_spec he hs ho _ _ h3 h
    · rename_i hal
      have hal : g.size = 8 * (g.size / 8) := by omega
      have := copyBytes_spec hs ho g.addr (g.size / 8) (by omega) h
      rwa [← hal] at this

theorem writeNewField_spec {e : Endian} (he : e ≠ .middle) {data : Bytes} {s : InputStream}
    {inp : Inp} {f : EField} (ha : f.altered = true) (hf : Fits f) (hu : unsignedEdit f)
    {o o' : OutputStream} (ho : OutOk e o) (h : writeField s inp e f o = .ok o') :
    OutOk e o' ∧ outBits e o' = outBits e o ++ fieldBits e data none f := by
  simp only [writeField, ha, if_true] at h
  exact writeValue_spec he ho ha hf hu h

theorem writeItems_spec {e : Endian} (he : e ≠ .middle) {data : Bytes} {s : InputStream} {inp : Inp}
    (l : List EField) (h : ∀ f ∈ l, f.altered = true ∧ Fits f) (hu : ∀ f ∈ l, unsignedEdit f)
    {o o' : OutputStream} (ho : OutOk e o) (hw : writeItems s inp e l o = .ok o') :
    OutOk e o' ∧ outBits e o' = outBits e o ++ l.flatMap (fieldBits e data none) := by
  induction l generalizing o with
  | nil => cases hw; exact ⟨ho, by simp⟩
  | cons f l ih =>
    simp only [writeItems] at hw
    split at hw
    · cases hw
    · rename_i o1 h1
      split at hw
      · cases hw
      · obtain ⟨w1, w2⟩ := writeNewField_spec he (data := data) (h f (by simp)).1 (h f (by simp)).2 (hu f (by simp)) ho h1
        obtain ⟨w3, w4⟩ := ih (fun g hg => h g (by simp [hg])) (fun g hg => hu g (by simp [hg])) w1 hw
        refine ⟨w3, ?_⟩
        rw [w4, w2]; simp

theorem writeNew_spec {e : Endian} (he : e ≠ .middle) {data : Bytes} {s : InputStream} {inp : Inp}
    (n : New) (h : GoodNew n) (hu : ∀ f ∈ n.items, unsignedEdit f)
    {o o' : OutputStream} (ho : OutOk e o) (hw : writeNew s inp e n o = .ok o') :
    OutOk e o' ∧ outBits e o' = outBits e o ++ newContent e data n := by
  obtain ⟨h1, h2, h3⟩ := h
  unfold writeNew at hw
  cases hs : n.isSet with
  | true =>
    simp only [hs, if_true, h1, if_false] at hw
    exact writeItems_spec he n.items h3 hu ho hw
  | false =>
    obtain ⟨f, hf⟩ := h2 hs
    simp only [hs, Bool.false_eq_true, if_false, hf] at hw
    obtain ⟨h4, h5⟩ := h3 f (by simp [hf])
    have := writeNewField_spec he (data := data) h4 h5 (hu f (by simp [hf])) ho hw
    simpa [newContent, hf] using this

theorem writeNews_spec {e : Endian} (he : e ≠ .middle) {data : Bytes} {s : InputStream} {inp : Inp}
    (l : List New) (h : ∀ n ∈ l, GoodNew n) (hu : ∀ n ∈ l, ∀ f ∈ n.items, unsignedEdit f)
    {o o' : OutputStream} (ho : OutOk e o) (hw : writeNews s inp e l o = .ok o') :
    OutOk e o' ∧ outBits e o' = outBits e o ++ l.flatMap (newContent e data) := by
  induction l generalizing o with
  | nil => cases hw; exact ⟨ho, by simp⟩
  | cons n l ih =>
    simp only [writeNews] at hw
    split at hw
    · cases hw
    · rename_i o1 h1
      split at hw
      · cases hw
      · obtain ⟨w1, w2⟩ := writeNew_spec he (data := data) n (h n (by simp)) (hu n (by simp)) ho h1
        obtain ⟨w3, w4⟩ := ih (fun g hg => h g (by simp [hg])) (fun g hg => hu g (by simp [hg])) w1 hw
        refine ⟨w3, ?_⟩
        rw [w4, w2]; simp

mutual
theorem writeInto_spec {e : Endian} (he : e ≠ .middle) {data : Bytes} {s : InputStream}
    (hs : stringInputStream data = .ok s) {inp : Inp} {g : Orig} : (t : Edit) → Good e data inp g t → NoSigned t →
    {o o' : OutputStream} → OutOk e o → writeInto s inp e t o = .ok o' →
    OutOk e o' ∧ outBits e o' = outBits e o ++ content e data inp t
  | .field f => by
    intro hg hu o o' ho h
    simp only [NoSigned] at hu
    simp only [writeInto] at h
    simp only [content]
    exact writeField_spec he hs hg hu ho h
  | .set n a z e' orig kids deleted inserted => by
    intro hg hu o o' ho h
    by_cases ha : isAltered (.set n a z e' orig kids deleted inserted) = true
    · simp only [Good] at hg
      obtain ⟨h1, h2, h3, h4, h5, h6, h7⟩ := hg
      subst h2
      simp only [NoSigned] at hu
      simp only [isAltered] at ha
      simp only [writeInto, ha, if_true] at h
      simp only [content]
      exact writeKids_spec he hs kids orig (some orig) h6 hu.1 deleted inserted h7 hu.2 ho h
    · have ha : isAltered (.set n a z e' orig kids deleted inserted) = false := by simpa using ha
      have hc := unaltered_content _ hg ha
      simp only [Good] at hg
      obtain ⟨h1, h2, h3, h4, h5, h6, h7⟩ := hg
      subst h2
      simp only [isAltered] at ha
      simp only [writeInto, ha, Bool.false_eq_true, if_false] at h
      rw [hc, h1]
      split at h
      · exact copyBits_spec he hs ho _ _ h3 h
      · rename_i hz
        have hz : z = 8 * (z / 8) := by omega
        have := copyBytes_spec hs ho a (z / 8) (by omega) h
        rwa [← hz] at this

theorem writeKids_spec {e : Endian} (he : e ≠ .middle) {data : Bytes} {s : InputStream}
    (hs : stringInputStream data = .ok s) : (kids : List Edit) → (os : List Orig) → (inp : Inp) →
    GoodKids e data inp os kids → NoSignedKids kids → (deleted : List String) → (inserted : Inserted) →
    (∀ p ∈ inserted, ∀ n ∈ p.2, GoodNew n) → (∀ p ∈ inserted, ∀ n ∈ p.2, ∀ f ∈ n.items, unsignedEdit f) →
    {o o' : OutputStream} → OutOk e o → writeKids s inp e deleted inserted kids o = .ok o' →
    OutOk e o' ∧ outBits e o' = outBits e o ++ (sequence e data inp deleted inserted kids).flatMap (·.2)
  | [], [], inp => by
    intro _ _ deleted inserted h7 hu o o' ho h
    simp only [writeKids] at h
    simp only [sequence, flatMap_map_new]
    exact writeNews_spec he _ (fun n hn => by obtain ⟨p, hp, hn⟩ := slot_mem hn; exact h7 p hp n hn)
      (fun n hn => by obtain ⟨p, hp, hn⟩ := slot_mem hn; exact hu p hp n hn) ho h
  | [], _ :: _, inp => by intro h; simp [GoodKids] at h
  | _ :: _, [], inp => by intro h; simp [GoodKids] at h
  | k :: ks, os1 :: os, inp => by
    intro hg hns deleted inserted h7 hu o o' ho h
    simp only [GoodKids] at hg
    simp only [NoSignedKids] at hns
    simp only [writeKids] at h
    split at h
    · cases h
    rename_i o1 h1
    obtain ⟨w1, w2⟩ := writeNews_spec he (data := data) _
      (fun n hn => by obtain ⟨p, hp, hn⟩ := slot_mem hn; exact h7 p hp n hn)
      (fun n hn => by obtain ⟨p, hp, hn⟩ := slot_mem hn; exact hu p hp n hn) ho h1
    split at h
    · rename_i hd
      obtain ⟨w3, w4⟩ := writeKids_spec he hs ks os inp hg.2 hns.2 deleted inserted h7 hu w1 h
      refine ⟨w3, ?_⟩
      rw [w4, w2]
      simp [sequence, hd, flatMap_map_new, List.flatMap_append]
    · rename_i hd
      split at h
      · cases h
      rename_i o2 h2
      split at h
      · cases h
      obtain ⟨w3, w4⟩ := writeInto_spec he hs k hg.1 hns.1 w1 h2
      obtain ⟨w5, w6⟩ := writeKids_spec he hs ks os inp hg.2 hns.2 deleted inserted h7 hu w3 h
      refine ⟨w5, ?_⟩
      rw [w6, w4, w2]
      simp [sequence, hd, flatMap_map_new, List.flatMap_append]
end

end Hachoir.Editor

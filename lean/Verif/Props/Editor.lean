import Verif.Editor.Reach

/-!
# Properties C28 and C29: writing an edited file
-/

set_option linter.unusedVariables false
set_option linter.unusedSimpArgs false

namespace Hachoir.Props
open Hachoir Hachoir.Stream Hachoir.Editor Spec

/-- The root of a parsed file: a field set. -/
def IsSet : Tree → Prop
  | .set .. => True
  | _ => False

theorem editor_good {e : Endian} {data : Bytes} {tree : Tree} (hr : IsSet tree) (hT : GoodTree e data tree)
    (hist : List (List String × Op)) (hops : ∀ p ∈ hist, GoodOp p.2) :
    Good e data none tree.orig (edits (createEditor tree) hist) := by
  apply edits_good hist hops
  apply create_good tree hT
  cases tree with
  | leaf => exact hr.elim
  | set n a z e' kids => exact Or.inl ⟨n, a, z, e', kids, rfl⟩

/-! ## C28 -/

/-- Writing the editor of a whole file, without edits, gives the file. -/
theorem C28_unmodified (e : Endian) (data : Bytes) (s : InputStream) (hs : stringInputStream data = .ok s)
    (name : String) (kids : List Tree) (parent : Endian) :
    writeInto s none parent (createEditor (.set name 0 (8 * data.length) e kids)) OutputStream.init
      = .ok { out := data, bitPos := 0, byte := 0 } := by
  have : anyAltered (kids.map createEditor) = false := by
    induction kids with
    | nil => rfl
    | cons k ks ih =>
      simp only [List.map_cons, anyAltered, ih, Bool.or_false]
      have : ∀ t : Tree, isAltered (createEditor t) = false := by
        intro t
        induction t using Tree.rec (motive_2 := fun l => anyAltered (l.map createEditor) = false) with
        | leaf => simp [createEditor, isAltered]
        | set n a z e kids ih => simp [createEditor, isAltered, ih]
        | nil => rfl
        | cons k ks h1 h2 => simp [anyAltered, h1, h2]
      exact this k
  simp only [createEditor, writeInto, this, ne_eq, not_true_eq_false, decide_false, Bool.or_false,
    Bool.false_eq_true, if_false]
  rw [if_neg (by omega), show 8 * data.length / 8 = data.length by omega]
  have := Props.C46_copyBytesFrom data s hs OutputStream.init rfl 0 data.length (by omega)
  simp only [Nat.mul_zero] at this
  rw [this]
  simp [OutputStream.init]

/-- Any sequence of edits that leaves every field in place and unaltered in content
(for example insertions of nothing) writes, if it writes, the bits of the file: what
is copied field by field is what is copied in one piece. -/
theorem C28_field_by_field (e : Endian) (he : e ≠ .middle) (data : Bytes) (s : InputStream)
    (hs : stringInputStream data = .ok s) (tree : Tree) (hr : IsSet tree) (hT : GoodTree e data tree)
    (n : String) (a z : Nat) (orig : List Orig) (kids : List Edit)
    (hc : createEditor tree = .set n a z e orig kids [] [])
    (o' : OutputStream) (h : writeKids s (some orig) e [] [] kids OutputStream.init = .ok o') :
    outBits e o' = slice (dataBits e data) a z := by
  have hg := editor_good hr hT [] (by simp)
  simp only [edits, hc, Good] at hg
  obtain ⟨h1, h2, h3, h4, h5, h6, h7⟩ := hg
  have hna : anyAltered kids = false := by
    have : ∀ t : Tree, isAltered (createEditor t) = false := by
      intro t
      induction t using Tree.rec (motive_2 := fun l => anyAltered (l.map createEditor) = false) with
      | leaf => simp [createEditor, isAltered]
      | set n a z e kids ih => simp [createEditor, isAltered, ih]
      | nil => rfl
      | cons k ks h1 h2 => simp [anyAltered, h1, h2]
    have := this tree
    rw [hc] at this
    simpa [isAltered] using this
  have hns : ∀ ks : List Edit, anyAltered ks = false → NoSignedKids ks := by
    intro ks
    induction ks using Edit.rec_1 (motive_1 := fun t => isAltered t = false → NoSigned t) with
    | field f => rename_i h; simp only [isAltered] at h; simp [NoSigned, unsignedEdit, h]
    | set n a z e o kids d i ih =>
      rename_i h
      simp only [isAltered, Bool.or_eq_false_iff, decide_eq_false_iff_not, ne_eq, not_not] at h
      simp only [NoSigned]
      exact ⟨ih h.2, by simp [h.1.1]⟩
    | nil => intro _; simp [NoSignedKids]
    | cons k ks h1 h2 =>
      intro h
      simp only [anyAltered, Bool.or_eq_false_iff] at h
      simp only [NoSignedKids]
      exact ⟨h1 h.1, h2 h.2⟩
  have := writeKids_spec he hs kids orig (some orig) h6 (hns kids hna) [] [] (by simp) (by simp) (outOk_init e) h
  rw [this.2, outBits_init, (unaltered_kids kids orig (some orig) a (a + z) h6 hna h5).2]
  simp

/-! ## C29 -/

/-- After any sequence of edits, what is written (if writing succeeds) is the
concatenation of the contents of the fields in edited order.  Missing from the full
statement: signed integers (written wrongly) and new EditableBytes (not written). -/
theorem C29_written_partial (e : Endian) (he : e ≠ .middle) (data : Bytes) (s : InputStream)
    (hs : stringInputStream data = .ok s) (tree : Tree) (hr : IsSet tree) (hT : GoodTree e data tree)
    (hist : List (List String × Op)) (hops : ∀ p ∈ hist, GoodOp p.2) (t : Edit)
    (ht : t = edits (createEditor tree) hist) (hsig : NoSigned t) (o o' : OutputStream) (ho : OutOk e o)
    (h : writeInto s none e t o = .ok o') :
    outBits e o' = outBits e o ++ content e data none t := by
  subst ht
  exact (writeInto_spec he hs _ (editor_good hr hT hist hops) hsig ho h).2

/-- The size of an edited field set is the number of bits of its content. -/
theorem C29_size (e : Endian) (data : Bytes) (tree : Tree) (hr : IsSet tree) (hT : GoodTree e data tree)
    (hist : List (List String × Op)) (hops : ∀ p ∈ hist, GoodOp p.2) (t : Edit)
    (ht : t = edits (createEditor tree) hist) :
    editSize none t = .ok (content e data none t).length := by
  subst ht
  exact editSize_spec _ (editor_good hr hT hist hops)

theorem addressLoop_sized (name : String) (l : List (String × List Bool)) (acc : Nat) :
    (∀ a, addressLoop name (sized l) acc = .ok a →
      ∃ pre c post, l = pre ++ (name, c) :: post ∧ (∀ p ∈ pre, p.1 ≠ name) ∧ a = acc + (pre.flatMap (·.2)).length) ∧
    (name ∈ l.map (·.1) → ∃ a, addressLoop name (sized l) acc = .ok a) ∧
    (name ∉ l.map (·.1) → addressLoop name (sized l) acc = .error .missingField) := by
  induction l generalizing acc with
  | nil => exact ⟨by simp [sized, addressLoop], by simp, by simp [sized, addressLoop]⟩
  | cons p l ih =>
    obtain ⟨n, c⟩ := p
    obtain ⟨i1, i2, i3⟩ := ih (acc + c.length)
    have hs : sized ((n, c) :: l) = (n, .ok c.length) :: sized l := rfl
    rw [hs]
    simp only [addressLoop]
    by_cases hn : n = name
    · subst hn
      simp only [if_true]
      refine ⟨?_, fun _ => ⟨acc, rfl⟩, by simp⟩
      intro a ha
      cases ha
      exact ⟨[], c, l, rfl, by simp, by simp⟩
    · simp only [hn, if_false]
      refine ⟨?_, ?_, ?_⟩
      · intro a ha
        obtain ⟨pre, c', post, h1, h2, h3⟩ := i1 a ha
        refine ⟨(n, c) :: pre, c', post, by rw [h1]; rfl, ?_, ?_⟩
        · intro p hp
          rcases List.mem_cons.1 hp with rfl | hp
          · exact hn
          · exact h2 p hp
        · rw [h3]; simp; omega
      · intro hm
        simp only [List.map_cons, List.mem_cons] at hm
        rcases hm with hm | hm
        · exact absurd hm.symm hn
        · exact i2 hm
      · intro hm
        simp only [List.map_cons, List.mem_cons, not_or] at hm
        exact i3 hm.2

/-- The address of a field of an edited set is the number of bits before it: it exists
for exactly the names in the edited order, and is the position of the first field of that
name. -/
theorem C29_address (e : Endian) (data : Bytes) (tree : Tree) (hr : IsSet tree) (hT : GoodTree e data tree)
    (hist : List (List String × Op)) (hops : ∀ p ∈ hist, GoodOp p.2)
    (n : String) (a z : Nat) (e' : Endian) (orig : List Orig) (kids : List Edit) (deleted : List String) (ins : Inserted)
    (ht : edits (createEditor tree) hist = .set n a z e' orig kids deleted ins) (name : String) :
    let seq := sequence e data (some orig) deleted ins kids
    content e data none (edits (createEditor tree) hist) = seq.flatMap (·.2) ∧
    (name ∈ seq.map (·.1) → ∃ addr pre c post, fieldAddress (edits (createEditor tree) hist) name = .ok addr ∧
      seq = pre ++ (name, c) :: post ∧ (∀ p ∈ pre, p.1 ≠ name) ∧ addr = (pre.flatMap (·.2)).length) ∧
    (name ∉ seq.map (·.1) → fieldAddress (edits (createEditor tree) hist) name = .error .missingField) := by
  have hg := editor_good hr hT hist hops
  rw [ht] at hg ⊢
  simp only [Good] at hg
  obtain ⟨h1, h2, h3, h4, h5, h6, h7⟩ := hg
  simp only [fieldAddress, editItems_spec kids orig (some orig) h6 deleted ins h7, content]
  obtain ⟨a1, a2, a3⟩ := addressLoop_sized name (sequence e data (some orig) deleted ins kids) 0
  refine ⟨trivial, ?_, a3⟩
  intro hm
  obtain ⟨addr, ha⟩ := a2 hm
  obtain ⟨pre, c, post, b1, b2, b3⟩ := a1 addr ha
  exact ⟨addr, pre, c, post, ha, b1, b2, by omega⟩

/-! ### Byte aligned trees can always be written -/

/-- An edited or new field whose class can write, on whole bytes. -/
def WritesBytes (f : EField) : Prop :=
  match f.kind with
  | .integer false => True
  | .bits | .mac32 => f.fixedSize % 8 = 0
  | .bytes | .suffixed _ | .fixed => True
  | _ => False

mutual
/-- Everything copied is byte aligned, everything edited can be written. -/
def ByteAligned (inp : Inp) : Edit → Prop
  | .field f => (f.altered = true → WritesBytes f) ∧
      (f.altered = false → ∀ o, inputGet inp f.name = .ok o → o.addr % 8 = 0 ∧ o.size % 8 = 0)
  | .set _ a z _ orig kids _ ins => a % 8 = 0 ∧ z % 8 = 0 ∧ ByteAlignedKids (some orig) kids ∧
      ∀ p ∈ ins, ∀ n ∈ p.2, ∀ f ∈ n.items, WritesBytes f

/-- The same for several. -/
def ByteAlignedKids (inp : Inp) : List Edit → Prop
  | [] => True
  | k :: ks => ByteAligned inp k ∧ ByteAlignedKids inp ks
end

theorem writeBits_total {e : Endian} (he : e ≠ .middle) {o : OutputStream} (ho : OutOk e o) (h0 : o.bitPos = 0)
    (n : Nat) (h8 : n % 8 = 0) (v : Int) (h1 : 0 ≤ v) (h2 : v < (2 ^ n : Nat)) :
    ∃ o', writeBits o n v e = .ok o' ∧ OutOk e o' ∧ o'.bitPos = 0 := by
  obtain ⟨m, rfl⟩ : ∃ m : Nat, v = m := ⟨v.toNat, by omega⟩
  obtain ⟨o', e1, e2, e3⟩ := writeBits_spec he ho n m (by omega)
  refine ⟨o', e1, e2, ?_⟩
  have := congrArg List.length e3
  rw [List.length_append, length_outBits e o' e2, length_outBits e o ho, length_toBits] at this
  have := e2.bitPos
  omega

theorem writeValue_total {e : Endian} (he : e ≠ .middle) {o : OutputStream} (ho : OutOk e o) (h0 : o.bitPos = 0)
    {f : EField} (hf : Fits f) (hw : WritesBytes f) :
    ∃ o', writeValue f e o = .ok o' ∧ OutOk e o' ∧ o'.bitPos = 0 := by
  obtain ⟨name, kind, fs, value, altered⟩ := f
  have wb : ∀ {o : OutputStream} (b : Bytes), OutOk e o → o.bitPos = 0 →
      ∃ o', writeBytes o b = .ok o' ∧ OutOk e o' ∧ o'.bitPos = 0 := by
    intro o b ho h0
    have : writeBytes o b = .ok { o with out := o.out ++ b } := by simp [writeBytes, h0]
    exact ⟨_, this, (writeBytes_spec ho b this).1, h0⟩
  cases kind with
  | integer signed =>
    cases signed with
    | true => simp [WritesBytes] at hw
    | false =>
      cases value with
      | none => simp [Fits] at hf
      | some v =>
        cases v with
        | bytes b => simp [Fits] at hf
        | int v =>
          simp only [Fits, true_implies] at hf
          obtain ⟨h8, h1, h2⟩ := hf
          obtain ⟨m, rfl⟩ : ∃ m : Nat, v = m := ⟨v.toNat, by omega⟩
          have h3 : m < 256 ^ (fs / 8) := by
            rw [pow256, show 8 * (fs / 8) = fs by omega]; omega
          obtain ⟨o', w1, w2⟩ := writeInteger_total he h0 m (fs / 8)
          exact ⟨o', w1, (writeInteger_spec he ho m (fs / 8) h3 w1).1, w2⟩
  | bits =>
    cases value with
    | none => simp [Fits] at hf
    | some v =>
      cases v with
      | bytes b => simp [Fits] at hf
      | int v => exact writeBits_total he ho h0 fs hw v hf.1 hf.2
  | mac32 =>
    cases value with
    | none => simp [Fits] at hf
    | some v =>
      cases v with
      | bytes b => simp [Fits] at hf
      | int v => exact writeBits_total he ho h0 fs hw v hf.1 hf.2
  | bytes =>
    cases value with
    | none => simp [Fits] at hf
    | some v =>
      cases v with
      | int v => simp [Fits] at hf
      | bytes b => exact wb b ho h0
  | fixed =>
    cases value with
    | none => simp [Fits] at hf
    | some v =>
      cases v with
      | int v => simp [Fits] at hf
      | bytes b => exact wb b ho h0
  | suffixed s =>
    cases value with
    | none => simp [Fits] at hf
    | some v =>
      cases v with
      | int v => simp [Fits] at hf
      | bytes b =>
        obtain ⟨o1, w1, w2, w3⟩ := wb b ho h0
        obtain ⟨o2, w4, w5, w6⟩ := wb s w2 w3
        exact ⟨o2, by simp [writeValue, w1, w4], w5, w6⟩
  | pascal p => simp [WritesBytes] at hw
  | character => simp [WritesBytes] at hw
  | other => simp [WritesBytes] at hw

theorem writeField_total {e : Endian} (he : e ≠ .middle) {data : Bytes} {s : InputStream}
    (hs : stringInputStream data = .ok s) {inp : Inp} {g : Orig} {f : EField} (hg : Good e data inp g (.field f))
    (hb : ByteAligned inp (.field f)) {o : OutputStream} (ho : OutOk e o) (h0 : o.bitPos = 0) :
    ∃ o', writeField s inp e f o = .ok o' ∧ OutOk e o' ∧ o'.bitPos = 0 := by
  have hsize := fieldSize_spec hg
  simp only [Good] at hg
  obtain ⟨h1, h2, h3, h4, h5, h6⟩ := hg
  simp only [ByteAligned] at hb
  unfold writeField
  cases ha : f.altered with
  | true =>
    simp only [if_true]
    exact writeValue_total he ho h0 (h6 ha) (hb.1 ha)
  | false =>
    have hbits : fieldBits e data inp f = slice (dataBits e data) g.addr g.size := by
      simp [fieldBits, ha, h2]
    rw [hbits, length_slice _ _ _ (by rw [length_dataBits]; exact h3)] at hsize
    simp only [Bool.false_eq_true, if_false, hsize, h2]
    obtain ⟨b1, b2⟩ := hb.2 ha g h2
    rw [if_neg (by omega)]
    obtain ⟨o', w1, w2⟩ := copyBytes_total hs h0 g.addr (g.size / 8) b1 (by omega)
    exact ⟨o', w1, (copyBytes_spec hs ho g.addr (g.size / 8) (by omega) w1).1, w2⟩

theorem writeItems_total {e : Endian} (he : e ≠ .middle) {s : InputStream} {inp : Inp} (l : List EField)
    (h : ∀ f ∈ l, f.altered = true ∧ Fits f) (hw : ∀ f ∈ l, WritesBytes f) {o : OutputStream} (ho : OutOk e o)
    (h0 : o.bitPos = 0) : ∃ o', writeItems s inp e l o = .ok o' ∧ OutOk e o' ∧ o'.bitPos = 0 := by
  induction l generalizing o with
  | nil => exact ⟨o, rfl, ho, h0⟩
  | cons f l ih =>
    obtain ⟨h1, h2⟩ := h f (by simp)
    obtain ⟨o1, w1, w2, w3⟩ := writeValue_total he ho h0 h2 (hw f (by simp))
    have hsz := newItem_size (e := e) (data := []) (inp := inp) h1 h2
    obtain ⟨o2, w4, w5, w6⟩ := ih (fun g hg => h g (by simp [hg])) (fun g hg => hw g (by simp [hg])) w2 w3
    exact ⟨o2, by simp [writeItems, writeField, h1, w1, hsz, w4], w5, w6⟩

theorem writeNews_total {e : Endian} (he : e ≠ .middle) {s : InputStream} {inp : Inp} (l : List New)
    (h : ∀ n ∈ l, GoodNew n) (hw : ∀ n ∈ l, ∀ f ∈ n.items, WritesBytes f) {o : OutputStream} (ho : OutOk e o)
    (h0 : o.bitPos = 0) : ∃ o', writeNews s inp e l o = .ok o' ∧ OutOk e o' ∧ o'.bitPos = 0 := by
  induction l generalizing o with
  | nil => exact ⟨o, rfl, ho, h0⟩
  | cons n l ih =>
    have hn := h n (by simp)
    have hsz := newSize_spec (e := e) (data := []) inp n hn
    have hone : ∃ o', writeNew s inp e n o = .ok o' ∧ OutOk e o' ∧ o'.bitPos = 0 := by
      obtain ⟨g1, g2, g3⟩ := hn
      unfold writeNew
      cases hset : n.isSet with
      | true =>
        simp only [if_true, g1, if_false]
        exact writeItems_total he n.items g3 (hw n (by simp)) ho h0
      | false =>
        obtain ⟨f, hf⟩ := g2 hset
        obtain ⟨h1, h2⟩ := g3 f (by simp [hf])
        obtain ⟨o1, w1, w2, w3⟩ := writeValue_total he ho h0 h2 (hw n (by simp) f (by simp [hf]))
        exact ⟨o1, by simp [hf, writeField, h1, w1], w2, w3⟩
    obtain ⟨o1, w1, w2, w3⟩ := hone
    obtain ⟨o2, w4, w5, w6⟩ := ih (fun g hg => h g (by simp [hg])) (fun g hg => hw g (by simp [hg])) w2 w3
    exact ⟨o2, by simp [writeNews, w1, hsz, w4], w5, w6⟩

mutual
theorem writeInto_total {e : Endian} (he : e ≠ .middle) {data : Bytes} {s : InputStream}
    (hs : stringInputStream data = .ok s) {inp : Inp} {g : Orig} : (t : Edit) → Good e data inp g t →
    ByteAligned inp t → {o : OutputStream} → OutOk e o → o.bitPos = 0 →
    ∃ o', writeInto s inp e t o = .ok o' ∧ OutOk e o' ∧ o'.bitPos = 0
  | .field f => by
    intro hg hb o ho h0
    simp only [writeInto]
    exact writeField_total he hs hg hb ho h0
  | .set n a z e' orig kids deleted ins => by
    intro hg hb o ho h0
    simp only [Good] at hg
    obtain ⟨h1, h2, h3, h4, h5, h6, h7⟩ := hg
    subst h2
    simp only [ByteAligned] at hb
    simp only [writeInto]
    split
    · exact writeKids_total he hs kids orig (some orig) h6 hb.2.2.1 deleted ins h7 hb.2.2.2 ho h0
    · rw [if_neg (by omega)]
      obtain ⟨o', w1, w2⟩ := copyBytes_total hs h0 a (z / 8) hb.1 (by omega)
      exact ⟨o', w1, (copyBytes_spec hs ho a (z / 8) (by omega) w1).1, w2⟩

theorem writeKids_total {e : Endian} (he : e ≠ .middle) {data : Bytes} {s : InputStream}
    (hs : stringInputStream data = .ok s) : (kids : List Edit) → (os : List Orig) → (inp : Inp) →
    GoodKids e data inp os kids → ByteAlignedKids inp kids → (deleted : List String) → (ins : Inserted) →
    (∀ p ∈ ins, ∀ n ∈ p.2, GoodNew n) → (∀ p ∈ ins, ∀ n ∈ p.2, ∀ f ∈ n.items, WritesBytes f) →
    {o : OutputStream} → OutOk e o → o.bitPos = 0 →
    ∃ o', writeKids s inp e deleted ins kids o = .ok o' ∧ OutOk e o' ∧ o'.bitPos = 0
  | [], [], inp => by
    intro _ _ deleted ins h7 hw o ho h0
    simp only [writeKids]
    exact writeNews_total he _ (fun n hn => by obtain ⟨p, hp, hn⟩ := slot_mem hn; exact h7 p hp n hn)
      (fun n hn => by obtain ⟨p, hp, hn⟩ := slot_mem hn; exact hw p hp n hn) ho h0
  | [], _ :: _, inp => by intro h; simp [GoodKids] at h
  | _ :: _, [], inp => by intro h; simp [GoodKids] at h
  | k :: ks, os1 :: os, inp => by
    intro hg hb deleted ins h7 hw o ho h0
    simp only [GoodKids] at hg
    simp only [ByteAlignedKids] at hb
    obtain ⟨o1, w1, w2, w3⟩ := writeNews_total he (s := s) (inp := inp) (ins.slot (some k.name))
      (fun n hn => by obtain ⟨p, hp, hn⟩ := slot_mem hn; exact h7 p hp n hn)
      (fun n hn => by obtain ⟨p, hp, hn⟩ := slot_mem hn; exact hw p hp n hn) ho h0
    simp only [writeKids, w1]
    split
    · exact writeKids_total he hs ks os inp hg.2 hb.2 deleted ins h7 hw w2 w3
    · obtain ⟨o2, v1, v2, v3⟩ := writeInto_total he hs k hg.1 hb.1 w2 w3
      rw [v1, editSize_spec k hg.1]
      exact writeKids_total he hs ks os inp hg.2 hb.2 deleted ins h7 hw v2 v3
end

theorem byteAligned_noSigned : (t : Edit) → (inp : Inp) → ByteAligned inp t → NoSigned t := by
  have wk : ∀ f : EField, WritesBytes f → f.kind ≠ .integer true := by
    intro f h hk
    simp [WritesBytes, hk] at h
  intro t
  induction t using Edit.rec (motive_2 := fun ks => ∀ inp, ByteAlignedKids inp ks → NoSignedKids ks) with
  | field f => intro inp h; simp only [ByteAligned] at h; simp only [NoSigned]; exact fun ha => wk f (h.1 ha)
  | set n a z e o kids d i ih =>
    intro inp h
    simp only [ByteAligned] at h
    simp only [NoSigned]
    exact ⟨ih _ h.2.2.1, fun p hp n hn f hf _ => wk f (h.2.2.2 p hp n hn f hf)⟩
  | nil => simp [NoSignedKids]
  | cons k ks h1 h2 =>
    rename_i h
    simp only [ByteAlignedKids] at h
    simp only [NoSignedKids]
    exact ⟨h1 _ h.1, h2 _ h.2⟩

/-- When the fields of the tree and the edited values occupy whole bytes, writing
succeeds after any edits and the file written has exactly the bits of the contents in
edited order. -/
theorem C29_written_bytes (e : Endian) (he : e ≠ .middle) (data : Bytes) (s : InputStream)
    (hs : stringInputStream data = .ok s) (tree : Tree) (hr : IsSet tree) (hT : GoodTree e data tree)
    (hist : List (List String × Op)) (hops : ∀ p ∈ hist, GoodOp p.2) (t : Edit)
    (ht : t = edits (createEditor tree) hist) (hb : ByteAligned none t) :
    ∃ o', writeInto s none e t OutputStream.init = .ok o' ∧ o'.bitPos = 0 ∧
      dataBits e o'.out = content e data none t := by
  subst ht
  have hg := editor_good hr hT hist hops
  obtain ⟨o', w1, w2, w3⟩ := writeInto_total he hs _ hg hb (outOk_init e) rfl
  refine ⟨o', w1, w3, ?_⟩
  have := (writeInto_spec he hs _ hg (byteAligned_noSigned _ _ hb) (outOk_init e) w1).2
  rw [outBits_init, List.nil_append] at this
  rw [← this]
  cases e <;> simp [outBits, dataBits, bitsBE, bitsLE, w3]

/-! ### A concrete tree -/

/-- Header of two fields, then a byte and a string. -/
def demoTree : Tree :=
  .set "file" 0 48 .big
    [.set "header" 0 16 .big [.leaf "version" 0 8 (.integer false), .leaf "flags" 8 8 .bits],
     .leaf "count" 16 8 (.integer false), .leaf "text" 24 24 (.suffixed [0])]

def demoData : Bytes := [1, 2, 3, 65, 66, 0]

def demoEdits : List (List String × Op) :=
  [(["header", "version"], .setValue (.int 7)), ([], .delete "count"),
   (["text"], .setValue (.bytes [67])), ([], .insertBefore "text" [newInteger "extra" false 16 0x1234])]

example : GoodTree .big demoData demoTree ∧ IsSet demoTree := by
  refine ⟨?_, trivial⟩
  simp [demoTree, demoData, GoodTree, GoodTrees, Tree.orig, Tile]

example : ∀ p ∈ demoEdits, GoodOp p.2 := by
  simp [demoEdits, GoodOp, GoodNew, newInteger, Fits]

/-- The tree after the edits: all on whole bytes. -/
example : ∃ t, t = edits (createEditor demoTree) demoEdits ∧ ByteAligned none t ∧ NoSigned t := by
  simp only [createEditor, demoTree, List.map_cons, List.map_nil, Tree.orig, initSize]
  refine ⟨_, rfl, ?_⟩
  have : ∀ t, ByteAligned none t → ByteAligned none t ∧ NoSigned t :=
    fun t h => ⟨h, byteAligned_noSigned t none h⟩
  apply this
  simp [edits, demoEdits, editAt, updateKid, Edit.name, applyOp, setValue, validRange, deleteName, insertBefore,
    insertInto, insertedNames, Inserted.at?, insertInside, Inserted.put, newInteger, Except.map, ByteAligned,
    ByteAlignedKids, WritesBytes, inputGet]

/-- Its fields one by one, without edits. -/
example : ∀ s, stringInputStream demoData = .ok s → ∃ n a z orig kids,
    createEditor demoTree = .set n a z .big orig kids [] [] ∧
      writeKids s (some orig) .big [] [] kids OutputStream.init = .ok { out := demoData, bitPos := 0, byte := 0 } := by
  intro s hs
  cases hs
  simp only [createEditor, demoTree, List.map_cons, List.map_nil, Tree.orig, initSize]
  exact ⟨_, _, _, _, _, rfl, by decide +kernel⟩

/-- The edited file. -/
theorem demo_written : ∀ s, stringInputStream demoData = .ok s →
    writeInto s none .big (edits (createEditor demoTree) demoEdits) OutputStream.init
      = .ok { out := [7, 2, 0x12, 0x34, 67, 0], bitPos := 0, byte := 0 } := by
  intro s hs
  cases hs
  simp only [createEditor, demoTree, List.map_cons, List.map_nil, Tree.orig, initSize]
  decide +kernel

/-! ### What goes wrong -/

/-- A new EditableBytes is not written: AssertionError (the documented example
editor_add_extra.py does this). -/
theorem C29_new_bytes_fail : ∀ s, stringInputStream demoData = .ok s →
    writeInto s none .big (edits (createEditor demoTree) [([], .insertBefore "text" [newBytes "extra" [1, 2]])])
      OutputStream.init = .error .assertion := by
  intro s hs
  cases hs
  simp only [createEditor, demoTree, List.map_cons, List.map_nil, Tree.orig, initSize]
  decide +kernel

/-- Under the name of a deleted field it writes the old bytes. -/
theorem C29_new_bytes_old_value : ∀ s, stringInputStream demoData = .ok s →
    writeInto s none .big (edits (createEditor demoTree)
        [([], .delete "count"), ([], .insertBefore "text" [newBytes "count" [99]])]) OutputStream.init
      = .ok { out := [1, 2, 3, 65, 66, 0], bitPos := 0, byte := 0 } := by
  intro s hs
  cases hs
  simp only [createEditor, demoTree, List.map_cons, List.map_nil, Tree.orig, initSize]
  decide +kernel

/-- A signed integer is written with an offset: -1 becomes 7f. -/
theorem C29_signed_wrong : ∀ s, stringInputStream [0, 0] = .ok s →
    writeInto s none .big (edits (createEditor
        (.set "f" 0 16 .big [.leaf "a" 0 8 (.integer true), .leaf "b" 8 8 (.integer true)]))
        [(["a"], .setValue (.int (-1)))]) OutputStream.init
      = .ok { out := [0x7f, 0], bitPos := 0, byte := 0 } := by
  intro s hs
  cases hs
  simp only [createEditor, demoTree, List.map_cons, List.map_nil, Tree.orig, initSize]
  decide +kernel

/-- A 64 bit integer cannot be edited: KeyError. -/
theorem C29_int64_refused (name : String) (v : Int) (signed : Bool) :
    setValue { name := name, kind := .integer signed, fixedSize := 64, value := none, altered := false } (.int v)
      = .error .key := by
  cases signed <;> rfl

/-- After a bit field is deleted, the byte fields behind it cannot be written. -/
theorem C29_bit_deleted_fails : ∀ s, stringInputStream [0xab, 0xcd] = .ok s →
    writeInto s none .big (edits (createEditor
        (.set "f" 0 16 .big [.leaf "a" 0 4 .bits, .leaf "b" 4 4 .bits, .leaf "c" 8 8 (.integer false)]))
        [([], .delete "a")]) OutputStream.init
      = .error .notImplemented := by
  intro s hs
  cases hs
  simp only [createEditor, demoTree, List.map_cons, List.map_nil, Tree.orig, initSize]
  decide +kernel

/-- An unedited set of byte size at an address between bytes cannot be copied. -/
theorem C29_unaligned_set_fails : ∀ s, stringInputStream [0xab, 0xcd] = .ok s →
    writeInto s none .big (edits (createEditor
        (.set "f" 0 16 .big [.leaf "a" 0 4 .bits, .set "b" 4 8 .big [.leaf "x" 4 8 .bits], .leaf "c" 12 4 .bits]))
        [(["a"], .setValue (.int 1))]) OutputStream.init
      = .error .outputStream := by
  intro s hs
  cases hs
  simp only [createEditor, demoTree, List.map_cons, List.map_nil, Tree.orig, initSize]
  decide +kernel

/-- Deleting a name that does not exist is accepted and makes the length wrong. -/
theorem C29_len_wrong :
    ∃ n a z e orig kids deleted ins,
      edits (createEditor demoTree) [([], .delete "nothing")] = .set n a z e orig kids deleted ins ∧
      editLen (.set n a z e orig kids deleted ins) = .ok 2 ∧
      (editItems (some orig) deleted ins kids).length = 3 := by
  simp only [createEditor, demoTree, List.map_cons, List.map_nil, Tree.orig, initSize]
  exact ⟨_, _, _, _, _, _, _, _, rfl, by decide +kernel, by decide +kernel⟩

end Hachoir.Props

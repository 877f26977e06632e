import Verif.Archive.Deflate
import Verif.Archive.HuffmanLemmas
import Verif.Spec.Deflate

/-!
# Lemmas about inflating
-/

set_option linter.unusedVariables false
set_option linter.unusedSimpArgs false

namespace Hachoir.Archive
open Hachoir Hachoir.Stream Spec

/-! ## Reading -/

theorem readBits_num {data : Bytes} {s : InputStream} (hs : stringInputStream data = .ok s) {addr n v : Nat}
    (hn : 0 < n) (hv : v < 2 ^ n) (h : BitsAt .little data addr (toBitsLSB n v)) :
    readBits s addr n .little = .ok v := by
  have := readBits_at hs (by simp) h (by
    intro e
    have := congrArg List.length e
    rw [length_toBitsLSB] at this
    simp at this
    omega)
  rw [length_toBitsLSB] at this
  rw [this]
  simp only [ofBitsLSB_toBitsLSB, Nat.mod_eq_of_lt hv]

theorem length_codeWord (lengths : List Nat) (i : Nat) : (codeWord lengths i).length = lengths.getD i 0 := by
  simp [codeWord, length_toBitsMSB]

theorem lengthCode_table {sym base n : Nat} (h : lengthCode sym = some (base, n)) :
    ∃ mx, lookup lengthSymbols sym = .ok (base, mx, n) := by
  have key : ∀ sym : Fin 286, ∀ p, lengthCode sym = some p →
      (match lookup lengthSymbols sym with | .ok (b, _, n) => decide ((b, n) = p) | .error _ => false) = true := by
    have : ∀ sym : Fin 286, (match lengthCode sym with
      | none => true
      | some p => (match lookup lengthSymbols sym with | .ok (b, _, n) => decide ((b, n) = p) | .error _ => false)) = true := by
      decide +kernel
    intro sym p hp
    have := this sym
    rw [hp] at this
    exact this
  have hlt : sym < 286 := by
    unfold lengthCode at h
    repeat' (split at h)
    all_goals first | omega | cases h
  have := key ⟨sym, hlt⟩ _ h
  simp only at this
  split at this
  · rename_i b mx n' hl
    simp at this
    exact ⟨mx, by rw [hl, this.1, this.2]⟩
  · simp at this

theorem distanceCode_table {sym base n : Nat} (h : distanceCode sym = some (base, n)) :
    ∃ mx, lookup distanceSymbols sym = .ok (base, mx, n) := by
  have key : ∀ sym : Fin 30, ∀ p, distanceCode sym = some p →
      (match lookup distanceSymbols sym with | .ok (b, _, n) => decide ((b, n) = p) | .error _ => false) = true := by
    have : ∀ sym : Fin 30, (match distanceCode sym with
      | none => true
      | some p => (match lookup distanceSymbols sym with | .ok (b, _, n) => decide ((b, n) = p) | .error _ => false)) = true := by
      decide +kernel
    intro sym p hp
    have := this sym
    rw [hp] at this
    exact this
  have hlt : sym < 30 := by
    unfold distanceCode at h
    repeat' (split at h)
    all_goals first | omega | cases h
  have := key ⟨sym, hlt⟩ _ h
  simp only at this
  split at this
  · rename_i b mx n' hl
    simp at this
    exact ⟨mx, by rw [hl, this.1, this.2]⟩
  · simp at this

theorem withExtra_spec {data : Bytes} {s : InputStream} (hs : stringInputStream data = .ok s) {addr base mx n x : Nat}
    (hx : x < 2 ^ n) (h : BitsAt .little data addr (toBitsLSB n x)) :
    withExtra s (base, mx, n) addr = .ok (base + x, addr + n) := by
  unfold withExtra
  by_cases hn : n = 0
  · subst hn
    have : x = 0 := by simpa using hx
    simp [this]
  · simp only [hn, if_false]
    rw [readBits_num hs (by omega) hx h]
    simp only [Nat.add_comm]

/-! ## The codes of a block -/

/-- Tables that decode the codes for the given lengths. -/
structure Trees (ll dl : List Nat) (t1 t2 : Table) : Prop where
  k1 : Kraft ll
  k2 : Kraft dl
  c1 : Codes ll t1
  c2 : Codes dl t2
  b1 : ∀ i, ll.getD i 0 ≤ 257
  b2 : ∀ i, dl.getD i 0 ≤ 257

theorem blockData_tokens {data : Bytes} {s : InputStream} (hs : stringInputStream data = .ok s) {ll dl : List Nat}
    {t1 t2 : Table} (ht : Trees ll dl t1 t2) {ts : List Token} {bs : List Bool} (hb : TokensBits ll dl ts bs) :
    ∀ (addr fuel : Nat) (d out : Bytes), BitsAt .little data addr bs → bs.length ≤ fuel → expand d ts = some out →
      blockData s t1 t2 fuel addr d = .ok (addr + bs.length, out) := by
  have hm : Endian.little = Endian.middle → data.length % 2 = 0 := by simp
  induction hb with
  | stop hc =>
    intro addr fuel d out hat hf he
    simp only [expand, Option.some.injEq] at he
    subst he
    have hpos : 0 < (codeWord ll 256).length := by rw [length_codeWord]; exact Nat.pos_of_ne_zero hc.2
    cases fuel with
    | zero => omega
    | succ fuel =>
      unfold blockData
      rw [huffmanCode_word hs hm ht.k1 ht.c1 hc (ht.b1 _) hat]
      simp [length_codeWord]
  | cons t b ts bs htok _ ih =>
    intro addr fuel d out hat hf he
    have hsp := hat.append
    cases htok with
    | lit x hc =>
      have hpos : 0 < (codeWord ll x.toNat).length := by rw [length_codeWord]; exact Nat.pos_of_ne_zero hc.2
      rw [List.length_append] at hf
      cases fuel with
      | zero => omega
      | succ fuel =>
        unfold blockData
        rw [huffmanCode_word hs hm ht.k1 ht.c1 hc (ht.b1 _) hsp.1]
        have hx : x.toNat < 256 := x.toNat_lt
        simp only [hx, if_true]
        simp only [expand] at he
        have := ih (addr + (codeWord ll x.toNat).length) fuel (d ++ [x]) out hsp.2 (by omega) he
        rw [length_codeWord] at this
        rw [UInt8.ofNat_toNat, this, List.length_append, length_codeWord]
        congr 2
        omega
    | copy sym base n x dsym dbase m y h1 h2 h3 h4 h5 h6 =>
      have hpos : 0 < (codeWord ll sym).length := by rw [length_codeWord]; exact Nat.pos_of_ne_zero h5.2
      rw [List.length_append] at hf
      simp only [List.length_append] at hf
      simp only [expand] at he
      split at he
      · rename_i hd
        cases fuel with
        | zero => omega
        | succ fuel =>
          obtain ⟨a1, a2⟩ := hsp.1.append
          obtain ⟨a11, a12⟩ := a1.append
          obtain ⟨a21, a22⟩ := a2.append
          have hsym : ¬ sym < 256 ∧ ¬ sym = 256 := by
            unfold lengthCode at h1
            constructor
            · intro hlt
              rw [if_pos (by omega)] at h1; cases h1
            · intro hlt
              rw [if_pos (by omega)] at h1; cases h1
          obtain ⟨mx, hl⟩ := lengthCode_table h1
          obtain ⟨mx2, hl2⟩ := distanceCode_table h3
          unfold blockData
          rw [huffmanCode_word hs hm ht.k1 ht.c1 h5 (ht.b1 _) a11]
          simp only [hsym, if_false, hl]
          rw [← length_codeWord, withExtra_spec hs h2 a12]
          simp only
          simp only [List.length_append, length_toBitsLSB, ← Nat.add_assoc] at a21 a22
          rw [huffmanCode_word hs hm ht.k2 ht.c2 h6 (ht.b2 _) a21]
          simp only [hl2]
          rw [← length_codeWord, withExtra_spec hs h4 a22]
          simp only
          rw [extendData_spec d _ _ hd.1 hd.2]
          simp only
          have := ih _ fuel _ out hsp.2 (by omega) he
          simp only [List.length_append, length_toBitsLSB, ← Nat.add_assoc] at this ⊢
          rw [this]
      · cases he

/-! ## Fixed codes -/

theorem fixed_lengths_table : fixedTrees.1
    = (List.range 288).map (fun i => ((fixedLengths.getD i 0, codeOf fixedLengths i), i)) := by
  decide +kernel

theorem fixed_distances_table : fixedTrees.2
    = (List.range 32).map (fun i => ((fixedDistances.getD i 0, codeOf fixedDistances i), i)) := by
  decide +kernel

theorem codes_of_list (lengths : List Nat) (n : Nat) (t : Table) (hn : lengths.length = n)
    (h0 : ∀ x ∈ lengths, x ≠ 0)
    (ht : t = (List.range n).map (fun i => ((lengths.getD i 0, codeOf lengths i), i))) : Codes lengths t := by
  apply codes_of_mem
  intro p
  rw [ht, List.mem_map]
  constructor
  · rintro ⟨i, hi, rfl⟩
    rw [List.mem_range] at hi
    refine ⟨i, ⟨by omega, ?_⟩, rfl⟩
    have hg : lengths.getD i 0 = lengths[i]'(by omega) := by simp [List.getD_eq_getElem?_getD, hn, hi]
    rw [hg]
    exact h0 _ (List.getElem_mem _)
  · rintro ⟨i, hi, rfl⟩
    exact ⟨i, by rw [List.mem_range]; have := hi.1; omega, rfl⟩

theorem getD_le_of_forall {l : List Nat} {b : Nat} (h : ∀ x ∈ l, x ≤ b) (i : Nat) : l.getD i 0 ≤ b := by
  rw [List.getD_eq_getElem?_getD]
  cases hx : l[i]? with
  | none => simp
  | some x => simp; exact h x (List.mem_of_getElem? hx)

theorem fixed_trees : Trees fixedLengths fixedDistances fixedTrees.1 fixedTrees.2 where
  k1 := ⟨9, by decide +kernel, by decide +kernel⟩
  k2 := ⟨5, by decide +kernel, by decide +kernel⟩
  c1 := codes_of_list _ 288 _ (by decide +kernel) (by decide +kernel) fixed_lengths_table
  c2 := codes_of_list _ 32 _ (by decide +kernel) (by decide +kernel) fixed_distances_table
  b1 := getD_le_of_forall (by decide +kernel)
  b2 := getD_le_of_forall (by decide +kernel)

/-! ## Dynamic codes -/

theorem codeLengthCodes_spec {data : Bytes} {s : InputStream} (hs : stringInputStream data = .ok s) (cl : List Nat)
    (h7 : ∀ i, cl.getD i 0 < 8) (order : List Nat) (addr : Nat) (init : List Nat)
    (hat : BitsAt .little data addr (order.flatMap (fun i => toBitsLSB 3 (cl.getD i 0)))) :
    codeLengthCodes s order addr init
      = .ok (addr + (order.flatMap (fun i => toBitsLSB 3 (cl.getD i 0))).length,
          order.foldl (fun l i => l.set i (cl.getD i 0)) init) := by
  induction order generalizing addr init with
  | nil => simp [codeLengthCodes]
  | cons i order ih =>
    rw [List.flatMap_cons] at hat
    have hsp := hat.append
    simp only [codeLengthCodes]
    rw [readBits_num hs (by omega) (h7 i) hsp.1]
    simp only
    rw [length_toBitsLSB] at hsp
    rw [ih (addr + 3) _ hsp.2]
    simp only [List.flatMap_cons, List.length_append, length_toBitsLSB, List.foldl_cons]
    congr 2
    omega

theorem foldl_set_getD (cl : List Nat) (order init : List Nat) (i : Nat) (hi : i < init.length) :
    (order.foldl (fun l i => l.set i (cl.getD i 0)) init).getD i 0
      = if i ∈ order then cl.getD i 0 else init.getD i 0 := by
  induction order generalizing init with
  | nil => simp
  | cons j order ih =>
    rw [List.foldl_cons, ih _ (by simpa using hi)]
    by_cases h1 : i ∈ order
    · simp [h1]
    · by_cases h2 : i = j
      · subst h2
        simp [h1, List.getD_eq_getElem?_getD, hi]
      · have : ¬ j = i := fun e => h2 e.symm
        simp [h1, h2, List.getD_eq_getElem?_getD, List.getElem?_set, this]

theorem foldl_set_length (cl : List Nat) (order init : List Nat) :
    (order.foldl (fun l i => l.set i (cl.getD i 0)) init).length = init.length := by
  induction order generalizing init with
  | nil => rfl
  | cons j order ih => rw [List.foldl_cons, ih]; simp

theorem header_cl {h : Header} (hv : h.Valid) :
    (codeLengthOrder.take (h.hclen + 4)).foldl (fun l i => l.set i (h.cl.getD i 0)) (List.replicate 19 0) = h.cl := by
  apply List.ext_getElem
  · rw [foldl_set_length, hv.cl19]; simp
  · intro i h1 h2
    have h3 : i < (List.replicate 19 0).length := by rw [foldl_set_length] at h1; exact h1
    have := foldl_set_getD h.cl (codeLengthOrder.take (h.hclen + 4)) (List.replicate 19 0) i h3
    rw [List.getD_eq_getElem?_getD, List.getElem?_eq_getElem h1, Option.getD_some] at this
    rw [this]
    have hg : h.cl.getD i 0 = h.cl[i] := by simp [List.getD_eq_getElem?_getD, h2]
    split
    · exact hg
    · rename_i hno
      rw [← hg, hv.written i hno]
      rw [List.getD_eq_getElem?_getD, List.getElem?_replicate]
      split <;> rfl

/-- Whether the symbols are read as the format says: "previous length" is not used after a run of
zeros. -/
def PrevOk : Bool → List Run → Prop
  | _, [] => True
  | _, .len _ :: rs => PrevOk false rs
  | z, .prev _ :: rs => z = false ∧ PrevOk false rs
  | _, .zeros _ :: rs => PrevOk true rs
  | _, .manyZeros _ :: rs => PrevOk true rs

/-- Whether the symbols end in a run of zeros. -/
def zerosLast : Bool → List Run → Bool
  | z, [] => z
  | _, .len _ :: rs => zerosLast false rs
  | z, .prev _ :: rs => zerosLast z rs
  | _, .zeros _ :: rs => zerosLast true rs
  | _, .manyZeros _ :: rs => zerosLast true rs

theorem prevOk_append (z : Bool) (a b : List Run) (h : PrevOk z (a ++ b)) : PrevOk z a ∧ PrevOk (zerosLast z a) b := by
  induction a generalizing z with
  | nil => exact ⟨trivial, h⟩
  | cons r a ih =>
    cases r with
    | len n => simp only [List.cons_append, PrevOk, zerosLast] at h ⊢; exact ih _ h
    | prev n =>
      simp only [List.cons_append, PrevOk, zerosLast] at h ⊢
      obtain ⟨rfl, h⟩ := h
      exact ⟨⟨rfl, (ih _ h).1⟩, (ih _ h).2⟩
    | zeros n => simp only [List.cons_append, PrevOk, zerosLast] at h ⊢; exact ih _ h
    | manyZeros n => simp only [List.cons_append, PrevOk, zerosLast] at h ⊢; exact ih _ h

theorem runLengths_grow {cl : List Nat} (rs : List Run) (hv : ∀ r ∈ rs, r.Valid cl) (acc r : List Nat)
    (h : runLengths acc rs = some r) : acc <+: r ∧ acc.length + rs.length ≤ r.length := by
  induction rs generalizing acc with
  | nil => simp only [runLengths, Option.some.injEq] at h; subst h; exact ⟨List.prefix_rfl, by simp⟩
  | cons x rs ih =>
    have hx := hv x (by simp)
    have ih := fun acc h => ih (fun r hr => hv r (by simp [hr])) acc h
    have fin : ∀ l : List Nat, 0 < l.length → runLengths (acc ++ l) rs = some r →
        acc <+: r ∧ acc.length + (x :: rs).length ≤ r.length := by
      intro l hl h
      obtain ⟨p, q⟩ := ih _ h
      refine ⟨(List.prefix_append acc l).trans p, ?_⟩
      simp only [List.length_append, List.length_cons] at q ⊢
      omega
    cases x with
    | len n => exact fin [n] (by simp) h
    | prev n =>
      simp only [runLengths] at h
      split at h
      · cases h
      · rename_i v _
        exact fin (List.replicate n v) (by have := hx.1; simp; omega) h
    | zeros n => exact fin (List.replicate n 0) (by have := hx.1; simp; omega) h
    | manyZeros n => exact fin (List.replicate n 0) (by have := hx.1; simp; omega) h

theorem runLengths_lt {cl : List Nat} (rs : List Run) (hv : ∀ r ∈ rs, r.Valid cl) (acc r : List Nat)
    (h : runLengths acc rs = some r) (ha : ∀ x ∈ acc, x < 16) : ∀ x ∈ r, x < 16 := by
  induction rs generalizing acc with
  | nil => simp only [runLengths, Option.some.injEq] at h; subst h; exact ha
  | cons x rs ih =>
    have hx := hv x (by simp)
    have ih := fun acc h ha => ih (fun r hr => hv r (by simp [hr])) acc h ha
    have fin : ∀ (n v : Nat), v < 16 → runLengths (acc ++ List.replicate n v) rs = some r → ∀ x ∈ r, x < 16 := by
      intro n v hv h
      apply ih _ h
      intro y hy
      rcases List.mem_append.1 hy with hy | hy
      · exact ha y hy
      · have := List.eq_of_mem_replicate hy; omega
    cases x with
    | len n => exact fin 1 n hx.1 h
    | prev n =>
      simp only [runLengths] at h
      split at h
      · cases h
      · rename_i v hl
        exact fin n v (ha v (List.mem_of_getLast? hl)) h
    | zeros n => exact fin n 0 (by omega) h
    | manyZeros n => exact fin n 0 (by omega) h

theorem codeLengths_runs {data : Bytes} {s : InputStream} (hs : stringInputStream data = .ok s) {cl : List Nat}
    (hk : Kraft cl) (h7 : ∀ i, cl.getD i 0 ≤ 257) {tree : Table} (hc : Codes cl tree) (base target : List Nat)
    (rs : List Run) (hv : ∀ r ∈ rs, r.Valid cl) :
    ∀ (lengths : List Nat) (prev : Option Nat) (z : Bool) (fuel addr : Nat),
      BitsAt .little data addr (rs.flatMap (Run.bits cl)) → runLengths (base ++ lengths) rs = some (base ++ target) →
      PrevOk z rs → (z = false → prev = (base ++ lengths).getLast?) → rs.length < fuel →
      ∃ prev', codeLengths s tree target.length fuel addr prev lengths
          = .ok (addr + (rs.flatMap (Run.bits cl)).length, prev', target) ∧
        (zerosLast z rs = false → prev' = (base ++ target).getLast?) := by
  have hm : Endian.little = Endian.middle → data.length % 2 = 0 := by simp
  induction rs with
  | nil =>
    intro lengths prev z fuel addr hat hr hp hprev hf
    simp only [runLengths, Option.some.injEq, List.append_cancel_left_eq] at hr
    subst hr
    cases fuel with
    | zero => simp at hf
    | succ fuel =>
      refine ⟨prev, ?_, hprev⟩
      simp [codeLengths]
  | cons r rs ih =>
    intro lengths prev z fuel addr hat hr hp hprev hf
    have hrv := hv r (by simp)
    have hgrow := (runLengths_grow (r :: rs) hv _ _ hr).2
    simp only [List.length_append, List.length_cons] at hgrow hf
    rw [List.flatMap_cons] at hat
    have hsp := hat.append
    have ih := ih (fun r hr => hv r (by simp [hr]))
    cases fuel with
    | zero => omega
    | succ fuel =>
      simp only [codeLengths]
      rw [if_pos (by omega)]
      have rep : ∀ (sym n min mx nb v : Nat), r.bits cl = codeWord cl sym ++ toBitsLSB nb (n - min) → ¬ sym < 16 →
          HasCode cl sym → lookup repeatSymbols sym = .ok (min, mx, nb) → min ≤ n → 0 < nb → n - min < 2 ^ nb →
          (if sym = 16 then prev else some 0) = some v →
          runLengths ((base ++ lengths) ++ List.replicate n v) rs = some (base ++ target) →
          ∀ z', PrevOk z' rs → (z' = false → prev = ((base ++ lengths) ++ List.replicate n v).getLast?) →
          zerosLast z (r :: rs) = zerosLast z' rs →
          ∃ prev', (match huffmanCode s Endian.little tree addr with
            | Except.error e => Except.error e
            | Except.ok (size, _, value) =>
              if value < 16 then codeLengths s tree target.length fuel (addr + size) (some value) (lengths ++ [value])
              else
                match lookup repeatSymbols value with
                | Except.error e => Except.error e
                | Except.ok info =>
                  match if value = 16 then prev else some 0 with
                  | none => Except.error PyErr.unbound
                  | some repvalue =>
                    match readBits s (addr + size : Nat) info.2.2 Endian.little with
                    | Except.error e => Except.error e
                    | Except.ok extra =>
                      codeLengths s tree target.length fuel (addr + size + info.2.2) prev
                        (lengths ++ List.replicate (extra + info.1) repvalue))
              = .ok (addr + ((r :: rs).flatMap (Run.bits cl)).length, prev', target) ∧
            (zerosLast z (r :: rs) = false → prev' = (base ++ target).getLast?) := by
        intro sym n min mx nb v e1 e2 e3 e4 e5 e6 e7 e8 e9 z' g1 g2 g3
        rw [e1] at hsp
        obtain ⟨a1, a2⟩ := hsp.1.append
        rw [huffmanCode_word hs hm hk hc e3 (h7 _) a1]
        simp only [e2, if_false, e4, e8]
        rw [length_codeWord] at a2
        rw [readBits_num hs e6 e7 a2]
        simp only
        rw [show n - min + min = n by omega]
        rw [List.append_assoc] at e9 g2
        obtain ⟨prev', i1, i2⟩ := ih (lengths ++ List.replicate n v) prev z' fuel (addr + cl.getD sym 0 + nb)
          (by have := hsp.2; simp only [List.length_append, length_codeWord, length_toBitsLSB, ← Nat.add_assoc] at this; exact this)
          e9 g1 g2 (by omega)
        refine ⟨prev', ?_, by rw [g3]; exact i2⟩
        rw [i1]
        simp only [List.flatMap_cons, e1, List.length_append, length_codeWord, length_toBitsLSB]
        congr 2
        omega
      cases r with
      | len n =>
        obtain ⟨hn, hcode⟩ := hrv
        rw [show Run.bits cl (.len n) = codeWord cl n from rfl] at hsp
        rw [huffmanCode_word hs hm hk hc hcode (h7 _) hsp.1]
        simp only [hn, if_true]
        simp only [runLengths] at hr
        rw [List.append_assoc] at hr
        rw [length_codeWord] at hsp
        obtain ⟨prev', i1, i2⟩ := ih (lengths ++ [n]) (some n) false fuel (addr + cl.getD n 0) hsp.2 hr hp
          (by intro _; simp) (by omega)
        refine ⟨prev', ?_, i2⟩
        rw [i1]
        simp only [List.flatMap_cons, Run.bits, List.length_append, length_codeWord]
        congr 2
        omega
      | prev n =>
        obtain ⟨h1, h2, hcode⟩ := hrv
        obtain ⟨rfl, hp⟩ := hp
        have hprev := hprev rfl
        simp only [runLengths] at hr
        cases hl : (base ++ lengths).getLast? with
        | none => rw [hl] at hr; cases hr
        | some v =>
          rw [hl] at hr hprev
          refine rep 16 n 3 6 2 v rfl (by omega) hcode rfl h1 (by omega) (by simp; omega) (by simp [hprev]) hr false hp ?_ rfl
          intro _
          rw [hprev, List.getLast?_append]
          have : (List.replicate n v).getLast? = some v := by
            rw [List.getLast?_replicate, if_neg (by omega)]
          simp [this]
      | zeros n =>
        obtain ⟨h1, h2, hcode⟩ := hrv
        exact rep 17 n 3 10 3 0 rfl (by omega) hcode rfl h1 (by omega) (by simp; omega) (by simp) hr true hp (by simp) rfl
      | manyZeros n =>
        obtain ⟨h1, h2, hcode⟩ := hrv
        exact rep 18 n 11 138 7 0 rfl (by omega) hcode rfl h1 (by omega) (by simp; omega) (by simp) hr true hp (by simp) rfl

/-- Descriptions that hachoir reads as the format says: no run goes from the lengths over to
the distances, and "previous length" is not used after a run of zeros. -/
def Header.Plain (h : Header) : Prop :=
  PrevOk false h.runs ∧ ∃ r1 r2, h.runs = r1 ++ r2 ∧ runLengths [] r1 = some h.ll

theorem runLengths_append (a b : List Run) (acc : List Nat) :
    runLengths acc (a ++ b) = (runLengths acc a).bind fun x => runLengths x b := by
  induction a generalizing acc with
  | nil => simp [runLengths]
  | cons r a ih =>
    cases r with
    | len n => simp only [List.cons_append, runLengths]; exact ih _
    | prev n =>
      simp only [List.cons_append, runLengths]
      cases acc.getLast? with
      | none => rfl
      | some v => exact ih _
    | zeros n => simp only [List.cons_append, runLengths]; exact ih _
    | manyZeros n => simp only [List.cons_append, runLengths]; exact ih _

theorem length_runBits_ge {cl : List Nat} (rs : List Run) (hv : ∀ r ∈ rs, r.Valid cl) :
    rs.length ≤ (rs.flatMap (Run.bits cl)).length := by
  induction rs with
  | nil => simp
  | cons r rs ih =>
    have := ih fun x hx => hv x (by simp [hx])
    have hr := hv r (by simp)
    simp only [List.flatMap_cons, List.length_append, List.length_cons]
    have : 0 < (r.bits cl).length := by
      cases r with
      | len n => simp only [Run.bits, length_codeWord]; exact Nat.pos_of_ne_zero hr.2.2
      | prev n => simp [Run.bits, length_toBitsLSB]
      | zeros n => simp [Run.bits, length_toBitsLSB]
      | manyZeros n => simp [Run.bits, length_toBitsLSB]
    omega

theorem dynamicTrees_spec {data : Bytes} {s : InputStream} (hs : stringInputStream data = .ok s) {h : Header}
    (hv : h.Valid) (hp : Header.Plain h) {addr fuel : Nat} (hat : BitsAt .little data addr h.bits)
    (hf : h.bits.length ≤ fuel) :
    ∃ t1 t2, dynamicTrees s fuel addr = .ok (addr + h.bits.length, t1, t2) ∧ Trees h.ll h.dl t1 t2 := by
  obtain ⟨hp1, r1, r2, hr, hr1⟩ := hp
  unfold Header.bits at hat hf ⊢
  obtain ⟨a1, b1⟩ := hat.append
  obtain ⟨a2, b2⟩ := b1.append
  obtain ⟨a3, b3⟩ := b2.append
  obtain ⟨a4, b4⟩ := b3.append
  simp only [length_toBitsLSB] at a2 a3 a4 b4
  have hll := hv.ll
  have hdl := hv.dl
  have hcl := hv.hclen
  have h7 : ∀ i, h.cl.getD i 0 < 8 := by
    intro i
    have := getD_le_of_forall (l := h.cl) (b := 7) (fun x hx => by have := hv.cl7 x hx; omega) i
    omega
  have hruns1 : ∀ r ∈ r1, r.Valid h.cl := fun r hm => hv.runs r (by rw [hr]; simp [hm])
  have hruns2 : ∀ r ∈ r2, r.Valid h.cl := fun r hm => hv.runs r (by rw [hr]; simp [hm])
  obtain ⟨tree, htree⟩ := buildTree_ok h.cl (by intro e; have := hv.cl19; rw [e] at this; simp at this)
  have hne1 : h.ll ≠ [] := by intro e; rw [e] at hll; simp at hll
  have hne2 : h.dl ≠ [] := by intro e; rw [e] at hdl; simp at hdl
  obtain ⟨t1, ht1⟩ := buildTree_ok h.ll hne1
  obtain ⟨t2, ht2⟩ := buildTree_ok h.dl hne2
  obtain ⟨p1, p2⟩ := prevOk_append false r1 r2 (by rw [← hr]; exact hp1)
  rw [hr, List.flatMap_append] at b4
  obtain ⟨a5, a6⟩ := b4.append
  have hlen := hv.lengths
  have hlt := runLengths_lt h.runs hv.runs [] _ hlen (by simp)
  rw [hr, runLengths_append, hr1, Option.bind_some] at hlen
  have g1 := length_runBits_ge r1 hruns1
  have g2 := length_runBits_ge r2 hruns2
  simp only [List.length_append, length_toBitsLSB, hr, List.flatMap_append] at hf
  obtain ⟨prev1, c1, c2⟩ := codeLengths_runs hs hv.clKraft (fun i => by have := h7 i; omega) (buildTree_get htree)
    [] h.ll r1 hruns1 [] none false fuel _ a5 (by simpa using hr1) p1 (by simp) (by omega)
  obtain ⟨prev2, d1, d2⟩ := codeLengths_runs hs hv.clKraft (fun i => by have := h7 i; omega) (buildTree_get htree)
    h.ll h.dl r2 hruns2 [] prev1 (zerosLast false r1) fuel _ a6 (by simpa using hlen) p2 (by simpa using c2) (by omega)
  refine ⟨t1, t2, ?_, ?_⟩
  · unfold dynamicTrees
    rw [readBits_num hs (by omega) (by simp; omega) a1]
    simp only
    rw [show ((addr : Int) + 5) = ((addr + 5 : Nat) : Int) by simp, readBits_num hs (by omega) (by simp; omega) a2]
    simp only
    rw [show ((addr : Int) + 10) = ((addr + 5 + 5 : Nat) : Int) by push_cast; omega, readBits_num hs (by omega) (by simp; omega) a3]
    simp only
    rw [show codeLengthOrder = runOrder from rfl] at *
    rw [codeLengthCodes_spec hs h.cl h7 _ (addr + 14) _ (by rw [show addr + 14 = addr + 5 + 5 + 4 by omega]; exact a4)]
    have hcleq := header_cl hv
    rw [show codeLengthOrder = runOrder from rfl] at hcleq
    rw [hcleq]
    simp only [htree]
    rw [show h.ll.length - 257 + 257 = h.ll.length by omega, show h.dl.length - 1 + 1 = h.dl.length by omega,
      show addr + 14 = addr + 5 + 5 + 4 by omega]
    rw [c1]
    simp only
    rw [d1]
    simp only [ht1, ht2, hr, List.flatMap_append, List.length_append, length_toBitsLSB]
    congr 2
    omega
  · have hb : ∀ x ∈ h.ll ++ h.dl, x ≤ 257 := fun x hx => by have := hlt x hx; omega
    exact ⟨hv.llKraft, hv.dlKraft, buildTree_get ht1, buildTree_get ht2,
      getD_le_of_forall fun x hx => hb x (by simp [hx]), getD_le_of_forall fun x hx => hb x (by simp [hx])⟩

/-! ## Blocks -/

/-- Blocks that hachoir reads as the format says. -/
def BlockPlain : Block → Prop
  | .stored _ => True
  | .fixed _ => True
  | .dynamic h _ => Header.Plain h

/-- The block without stored bytes. -/
def dropStored : Block → Block
  | .stored _ => .stored []
  | b => b

theorem storedBlock_spec {data : Bytes} {s : InputStream} (hs : stringInputStream data = .ok s) {bytes : Bytes}
    {pad : List Bool} {pos : Nat} (h1 : bytes.length < 65536) (h2 : pad.length < 8) (h3 : (pos + pad.length) % 8 = 0)
    (hat : BitsAt .little data pos
      (pad ++ (toBitsLSB 16 bytes.length ++ (toBitsLSB 16 (65535 - bytes.length) ++ bitsLSB bytes)))) :
    storedBlock s pos = .ok (pos + (pad ++ (toBitsLSB 16 bytes.length ++ (toBitsLSB 16 (65535 - bytes.length) ++ bitsLSB bytes))).length) := by
  obtain ⟨a1, b1⟩ := hat.append
  obtain ⟨a2, b2⟩ := b1.append
  obtain ⟨a3, b3⟩ := b2.append
  rw [length_toBitsLSB] at a3
  unfold storedBlock
  have hpad : Tools.paddingSize pos 8 = .ok (pad.length : Int) := by
    unfold Tools.paddingSize
    rw [if_neg (by omega)]
    have : (pos : Int).fmod 8 = ((pos % 8 : Nat) : Int) := by
      rw [Int.fmod_eq_emod_of_nonneg _ (by omega)]; omega
    rw [this]
    split
    · congr 1; omega
    · congr 1; omega
  rw [hpad]
  simp only [Int.toNat_natCast]
  rw [readBits_num hs (by omega) (by simpa using h1) a2]
  simp only
  rw [show (((pos + pad.length : Nat) : Int) + 16) = ((pos + pad.length + 16 : Nat) : Int) by push_cast; rfl,
    readBits_num hs (by omega) (by simp; omega) a3]
  simp only
  rw [if_neg (by omega)]
  simp only [List.length_append, length_toBitsLSB, length_bitsLSB]
  congr 1
  omega

theorem deflateBlock_spec {data : Bytes} {s : InputStream} (hs : stringInputStream data = .ok s) {b : Block}
    {bs : List Bool} {pos fuel : Nat} {d out : Bytes} {final : Bool} (hb : BlockBits pos b bs) (hp : BlockPlain b)
    (hat : BitsAt .little data pos (final :: bs)) (hf : bs.length ≤ fuel) (he : expandBlock d (dropStored b) = some out) :
    deflateBlock s fuel pos d = .ok (final.toNat, pos + (bs.length + 1), out) := by
  have hat' : BitsAt .little data pos ([final] ++ bs) := hat
  obtain ⟨a1, a2⟩ := hat'.append
  have hfin := readBit_at hs (by simp) a1
  simp only [List.length_singleton] at a2
  have htype : ∀ (b0 b1 : Bool) (rest : List Bool), bs = [b0, b1] ++ rest →
      readBits s (pos + 1 : Nat) 2 .little = .ok (b0.toNat + 2 * b1.toNat) ∧ BitsAt .little data (pos + 3) rest := by
    intro b0 b1 rest e
    rw [e] at a2
    obtain ⟨x, y⟩ := a2.append
    refine ⟨?_, y⟩
    have := readBits_at hs (by simp) x (by simp)
    simp only [List.length_cons, List.length_nil, Nat.zero_add] at this
    rw [this]
    simp [ofBitsLSB]
  unfold deflateBlock
  rw [hfin]
  simp only
  cases hb with
  | stored bytes pad h1 h2 h3 =>
    obtain ⟨r1, r2⟩ := htype _ _ _ rfl
    have r1' : readBits s ((pos : Int) + 1) 2 .little = .ok 0 := by simpa using r1
    simp only [r1', if_true]
    rw [storedBlock_spec hs h1 h2 h3 r2]
    simp only [dropStored, expandBlock, List.append_nil, Option.some.injEq] at he
    subst he
    simp only [List.length_append, List.length_cons, List.length_nil]
    congr 3
    omega
  | fixed ts bits hts =>
    obtain ⟨r1, r2⟩ := htype _ _ _ rfl
    have r1' : readBits s ((pos : Int) + 1) 2 .little = .ok 1 := by simpa using r1
    simp only [r1', if_true]
    rw [if_neg (by omega)]
    simp only [List.length_append, List.length_cons, List.length_nil] at hf
    rw [blockData_tokens hs fixed_trees hts _ fuel d out r2 (by omega) he]
    simp only [List.length_append, List.length_cons, List.length_nil]
    congr 3
    omega
  | dynamic h ts bits hval hts =>
    obtain ⟨r1, r2⟩ := htype _ _ _ rfl
    have r1' : readBits s ((pos : Int) + 1) 2 .little = .ok 2 := by simpa using r1
    simp only [r1']
    rw [if_neg (by omega), if_neg (by omega), if_pos (by trivial)]
    simp only [List.length_append, List.length_cons, List.length_nil] at hf
    obtain ⟨x, y⟩ := r2.append
    obtain ⟨t1, t2, c1, c2⟩ := dynamicTrees_spec hs hval hp x (fuel := fuel) (by omega)
    rw [c1]
    simp only
    rw [blockData_tokens hs c2 hts _ fuel d out y (by omega) he]
    simp only [List.length_append, List.length_cons, List.length_nil]
    congr 3
    omega

theorem deflateBlocks_spec {data : Bytes} {s : InputStream} (hs : stringInputStream data = .ok s) {pos : Nat}
    {l : List Block} {bs : List Bool} (hb : BlocksBits pos l bs) (fuel2 : Nat) :
    ∀ (fuel : Nat) (d out : Bytes), (∀ b ∈ l, BlockPlain b) → BitsAt .little data pos bs → bs.length ≤ fuel →
      bs.length ≤ fuel2 → expandBlocks d (l.map dropStored) = some out →
      deflateBlocks s fuel2 fuel pos d = .ok (pos + bs.length, out) := by
  induction hb with
  | last pos b bs h =>
    intro fuel d out hp hat hf hf2 he
    simp only [List.length_cons] at hf hf2
    cases fuel with
    | zero => omega
    | succ fuel =>
      simp only [List.map_cons, List.map_nil, expandBlocks] at he
      cases hx : expandBlock d (dropStored b) with
      | none => rw [hx] at he; cases he
      | some d' =>
        rw [hx] at he
        simp only [Option.some.injEq] at he
        subst he
        unfold deflateBlocks
        rw [deflateBlock_spec hs h (hp b (by simp)) hat (by omega) hx]
        simp
  | cons pos b bs l ls h _ ih =>
    intro fuel d out hp hat hf hf2 he
    simp only [List.length_append, List.length_cons] at hf hf2
    obtain ⟨a1, a2⟩ := hat.append
    cases fuel with
    | zero => omega
    | succ fuel =>
      simp only [List.map_cons, List.map_nil, expandBlocks] at he
      cases hx : expandBlock d (dropStored b) with
      | none => rw [hx] at he; cases he
      | some d' =>
        rw [hx] at he
        unfold deflateBlocks
        rw [deflateBlock_spec hs h (hp b (by simp)) a1 (by omega) hx]
        simp only [Bool.toNat_false, if_true]
        rw [ih fuel d' out (fun b hb => hp b (by simp [hb])) a2 (by omega) (by omega) he]
        simp only [List.length_append, List.length_cons]
        congr 2
        omega

end Hachoir.Archive

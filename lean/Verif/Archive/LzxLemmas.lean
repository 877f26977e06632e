import Verif.Archive.Lzx
import Verif.Archive.DeflateLemmas
import Verif.Spec.Lzx
import Verif.Props.InputStream

/-!
# Lemmas about LZX
-/

set_option linter.unusedVariables false
set_option linter.unusedSimpArgs false

namespace Hachoir.Archive.LZX
open Hachoir Hachoir.Stream Hachoir.Archive Spec.Lzx
open Spec hiding BlockBits BlocksBits

/-! ## Reading -/

theorem words_eq (l : Bytes) : words l = swapPairs l := by
  fun_induction swapPairs l with
  | case1 a b rest ih => simp [words, ih]
  | case2 l h =>
    match l with
    | [] => rfl
    | [a] => rfl
    | a :: b :: r => exact absurd rfl (h a b r)

theorem fileBits_eq (l : Bytes) : fileBits l = streamBits .middle l := by
  unfold fileBits streamBits
  rw [words_eq]

theorem readNum {data : Bytes} {s : InputStream} (hs : stringInputStream data = .ok s) (hm : data.length % 2 = 0)
    {addr n v : Nat} (hn : 0 < n) (hv : v < 2 ^ n) (h : BitsAt .middle data addr (toBitsMSB n v)) :
    readBits s addr n .middle = .ok v := by
  have := readBits_at hs (fun _ => hm) h (by
    intro e
    have := congrArg List.length e
    rw [length_toBitsMSB] at this
    simp at this
    omega)
  rw [length_toBitsMSB] at this
  rw [this]
  simp only [ofBitsMSB_toBitsMSB, Nat.mod_eq_of_lt hv]

theorem length_flatMap_toBits (w : Nat) (l : List Nat) : (l.flatMap (toBitsMSB w)).length = w * l.length := by
  induction l with
  | nil => simp
  | cons x l ih => rw [List.flatMap_cons, List.length_append, ih, length_toBitsMSB, List.length_cons]; ring

theorem lzxNumbers_spec {data : Bytes} {s : InputStream} (hs : stringInputStream data = .ok s)
    (hm : data.length % 2 = 0) {w : Nat} (hw : 0 < w) (l : List Nat) (hl : ∀ x ∈ l, x < 2 ^ w) (addr : Nat)
    (hat : BitsAt .middle data addr (l.flatMap (toBitsMSB w))) : lzxNumbers s w l.length addr = .ok l := by
  induction l generalizing addr with
  | nil => rfl
  | cons x l ih =>
    rw [List.flatMap_cons] at hat
    obtain ⟨a, b⟩ := hat.append
    rw [length_toBitsMSB] at b
    simp only [List.length_cons, lzxNumbers]
    rw [readNum hs hm hw (hl x (by simp)) a]
    simp only
    rw [ih (fun y hy => hl y (by simp [hy])) _ b]

/-! ## Code lengths -/

theorem lzxDelta_eq (old v : Nat) (h : v ≤ 16) : lzxDelta old v = newLength old v := by
  unfold lzxDelta newLength
  omega

theorem lengths_size {old new : List Nat} {rs : List TreeRun} {pre : List Nat} (h : Lengths old rs new)
    (hv : ∀ r ∈ rs, r.Valid pre) : new.length = old.length ∧ rs.length ≤ old.length := by
  induction h with
  | nil => simp
  | delta x v old rs new h ih =>
    have := ih (fun r hr => hv r (by simp [hr]))
    simp only [List.length_cons]; omega
  | zeros n a old rs new ha h ih =>
    have := ih (fun r hr => hv r (by simp [hr]))
    have := hv (.zeros n) (by simp)
    simp only [TreeRun.Valid] at this
    simp only [List.length_cons, List.length_append, List.length_replicate]; omega
  | manyZeros n a old rs new ha h ih =>
    have := ih (fun r hr => hv r (by simp [hr]))
    have := hv (.manyZeros n) (by simp)
    simp only [TreeRun.Valid] at this
    simp only [List.length_cons, List.length_append, List.length_replicate]; omega
  | same n v x a old rs new ha h ih =>
    have := ih (fun r hr => hv r (by simp [hr]))
    simp only [List.length_cons, List.length_append, List.length_replicate, List.cons_append]; omega

theorem lengths_small {old new : List Nat} {rs : List TreeRun} (h : Lengths old rs new) : ∀ x ∈ new, x < 17 := by
  have hn : ∀ a b, newLength a b < 17 := fun a b => Nat.mod_lt _ (by omega)
  induction h with
  | nil => simp
  | delta x v old rs new h ih =>
    intro y hy
    rcases List.mem_cons.1 hy with rfl | hy
    · exact hn _ _
    · exact ih y hy
  | zeros n a old rs new ha h ih =>
    intro y hy
    rcases List.mem_append.1 hy with hy | hy
    · rw [List.eq_of_mem_replicate hy]; omega
    · exact ih y hy
  | manyZeros n a old rs new ha h ih =>
    intro y hy
    rcases List.mem_append.1 hy with hy | hy
    · rw [List.eq_of_mem_replicate hy]; omega
    · exact ih y hy
  | same n v x a old rs new ha h ih =>
    intro y hy
    rcases List.mem_append.1 hy with hy | hy
    · rw [List.eq_of_mem_replicate hy]; exact hn _ _
    · exact ih y hy

theorem lzxFill_eq (done a old : List Nat) (n v : Nat) (h : a.length = n) :
    lzxFill (done ++ (a ++ old)) done.length n v = (done ++ List.replicate n v) ++ old := by
  unfold lzxFill
  rw [List.take_left]
  have : (done ++ (a ++ old)).drop (done.length + n) = old := by
    rw [← List.append_assoc]
    have hl : done.length + n = (done ++ a).length := by simp [h]
    rw [hl, List.drop_left]
  rw [this]

theorem getD_mid (done old : List Nat) (x : Nat) : (done ++ x :: old).getD done.length 0 = x := by
  simp [List.getD_eq_getElem?_getD]

theorem treeLoop_spec {data : Bytes} {s : InputStream} (hs : stringInputStream data = .ok s) (hm : data.length % 2 = 0)
    {pre : List Nat} (hk : Kraft pre) (h16 : ∀ x ∈ pre, x < 16) {tree : Table} (hc : Codes pre tree)
    {old new : List Nat} {rs : List TreeRun} (h : Lengths old rs new) (hv : ∀ r ∈ rs, r.Valid pre) :
    ∀ (done : List Nat) (fuel addr num : Nat), num = done.length + old.length → rs.length ≤ fuel →
      BitsAt .middle data addr (rs.flatMap (TreeRun.bits pre)) →
      lzxTreeLoop s tree num fuel done.length addr (done ++ old)
        = .ok (addr + (rs.flatMap (TreeRun.bits pre)).length, done ++ new) := by
  have hb : ∀ i, pre.getD i 0 ≤ 257 := getD_le_of_forall (fun x hx => by have := h16 x hx; omega)
  have hm' : Endian.middle = Endian.middle → data.length % 2 = 0 := fun _ => hm
  induction h with
  | nil =>
    intro done fuel addr num hn hf hat
    cases fuel with
    | zero => simp [lzxTreeLoop]
    | succ fuel =>
      simp only [lzxTreeLoop]
      rw [if_neg (by simp at hn; omega)]
      simp
  | delta x v old rs new h ih =>
    intro done fuel addr num hn hf hat
    have hr := hv (.delta v) (by simp)
    simp only [TreeRun.Valid] at hr
    rw [List.flatMap_cons] at hat ⊢
    obtain ⟨a1, a2⟩ := hat.append
    simp only [TreeRun.bits] at a1 a2 ⊢
    simp only [List.length_cons] at hf hn
    cases fuel with
    | zero => omega
    | succ fuel =>
      simp only [lzxTreeLoop]
      rw [if_pos (by omega), huffmanCode_word hs hm' hk hc hr.2 (hb _) a1]
      simp only
      rw [if_pos hr.1, getD_mid, lzxDelta_eq _ _ hr.1]
      have hset : (done ++ x :: old).set done.length (newLength x v) = (done ++ [newLength x v]) ++ old := by simp
      rw [hset]
      have := ih (fun r hr => hv r (by simp [hr])) (done ++ [newLength x v]) fuel (addr + (codeWord pre v).length) num
        (by simp; omega) (by omega) a2
      rw [List.length_append, List.length_singleton, length_codeWord] at this
      rw [this, List.length_append, length_codeWord]
      simp [Nat.add_assoc]
  | zeros n a old rs new ha h ih =>
    intro done fuel addr num hn hf hat
    have hr := hv (.zeros n) (by simp)
    simp only [TreeRun.Valid] at hr
    rw [List.flatMap_cons] at hat ⊢
    obtain ⟨a1, a2⟩ := hat.append
    simp only [TreeRun.bits] at a1 a2 ⊢
    obtain ⟨a3, a4⟩ := a1.append
    simp only [List.length_cons, List.length_append] at hf hn
    cases fuel with
    | zero => omega
    | succ fuel =>
      simp only [lzxTreeLoop]
      rw [if_pos (by omega), huffmanCode_word hs hm' hk hc hr.2.2 (hb _) a3]
      rw [length_codeWord] at a4
      simp only
      rw [if_neg (by omega), if_pos trivial, readNum hs hm (by omega) (by omega) a4]
      simp only
      rw [show 4 + (n - 4) = n by omega, lzxFill_eq done a old n 0 ha]
      have := ih (fun r hr => hv r (by simp [hr])) (done ++ List.replicate n 0) fuel _ num
        (by simp; omega) (by omega) a2
      simp only [List.length_append, List.length_replicate, length_codeWord, length_toBitsMSB] at this ⊢
      rw [show addr + pre.getD 17 0 + 4 = addr + (pre.getD 17 0 + 4) by omega, this]
      simp [Nat.add_assoc]
  | manyZeros n a old rs new ha h ih =>
    intro done fuel addr num hn hf hat
    have hr := hv (.manyZeros n) (by simp)
    simp only [TreeRun.Valid] at hr
    rw [List.flatMap_cons] at hat ⊢
    obtain ⟨a1, a2⟩ := hat.append
    simp only [TreeRun.bits] at a1 a2 ⊢
    obtain ⟨a3, a4⟩ := a1.append
    simp only [List.length_cons, List.length_append] at hf hn
    cases fuel with
    | zero => omega
    | succ fuel =>
      simp only [lzxTreeLoop]
      rw [if_pos (by omega), huffmanCode_word hs hm' hk hc hr.2.2 (hb _) a3]
      rw [length_codeWord] at a4
      simp only
      rw [if_neg (by omega), if_neg (by omega), if_pos trivial, readNum hs hm (by omega) (by omega) a4]
      simp only
      rw [show 20 + (n - 20) = n by omega, lzxFill_eq done a old n 0 ha]
      have := ih (fun r hr => hv r (by simp [hr])) (done ++ List.replicate n 0) fuel _ num
        (by simp; omega) (by omega) a2
      simp only [List.length_append, List.length_replicate, length_codeWord, length_toBitsMSB] at this ⊢
      rw [show addr + pre.getD 18 0 + 5 = addr + (pre.getD 18 0 + 5) by omega, this]
      simp [Nat.add_assoc]
  | same n v x a old rs new ha h ih =>
    intro done fuel addr num hn hf hat
    have hr := hv (.same n v) (by simp)
    simp only [TreeRun.Valid] at hr
    rw [List.flatMap_cons] at hat ⊢
    obtain ⟨a1, a2⟩ := hat.append
    simp only [TreeRun.bits] at a1 a2 ⊢
    obtain ⟨a3, a4⟩ := a1.append
    obtain ⟨a5, a6⟩ := a4.append
    simp only [List.length_cons, List.length_append, List.cons_append] at hf hn
    cases fuel with
    | zero => omega
    | succ fuel =>
      simp only [lzxTreeLoop]
      rw [if_pos (by omega), huffmanCode_word hs hm' hk hc hr.2.2.2.1 (hb _) a3]
      rw [length_codeWord] at a5 a6
      rw [length_toBitsMSB] at a6
      simp only
      rw [if_neg (by omega), if_neg (by omega), if_neg (by omega), readNum hs hm (by omega) (by omega) a5]
      simp only
      rw [huffmanCode_word hs hm' hk hc hr.2.2.2.2 (hb _) a6]
      simp only
      rw [if_neg (by omega)]
      have hg : (done ++ (x :: a ++ old)).getD done.length 0 = x := by
        rw [List.cons_append]; exact getD_mid _ _ _
      rw [hg, lzxDelta_eq _ _ hr.2.2.1, show 4 + (n - 4) = n by omega, lzxFill_eq done (x :: a) old n _ (by simpa using ha)]
      have := ih (fun r hr => hv r (by simp [hr])) (done ++ List.replicate n (newLength x v)) fuel _ num
        (by simp; omega) (by omega) a2
      simp only [List.length_append, List.length_replicate, length_codeWord, length_toBitsMSB] at this ⊢
      rw [show addr + pre.getD 19 0 + 1 + pre.getD v 0 = addr + (pre.getD 19 0 + (1 + pre.getD v 0)) by omega, this]
      simp [Nat.add_assoc]

theorem lzxTree_spec {data : Bytes} {s : InputStream} (hs : stringInputStream data = .ok s) (hm : data.length % 2 = 0)
    {old new : List Nat} {bs : List Bool} (h : TreeBits old new bs) (o : Option (List Nat)) (num addr : Nat)
    (hn : old.length = num) (ho : o.getD (List.replicate num 0) = old) (hat : BitsAt .middle data addr bs) :
    lzxTree s num o addr = .ok (addr + bs.length, new) := by
  cases h with
  | mk pre rs h20 h16 hk hv hl =>
    obtain ⟨a1, a2⟩ := hat.append
    unfold lzxTree
    have := lzxNumbers_spec hs hm (by omega) pre (fun x hx => by have := h16 x hx; omega) addr a1
    rw [h20] at this
    rw [this]
    simp only
    obtain ⟨t, ht⟩ := buildTree_ok pre (by intro e; rw [e] at h20; simp at h20)
    rw [ht]
    simp only
    rw [ho]
    rw [length_flatMap_toBits, h20] at a2
    have := treeLoop_spec hs hm hk h16 (buildTree_get ht) hl hv [] num (addr + 80) num (by simp [hn])
      (by have := (lengths_size hl hv).2; omega) a2
    simp only [List.length_nil, List.nil_append] at this
    rw [this, List.length_append, length_flatMap_toBits, h20]
    simp [Nat.add_assoc]

theorem treeBits_size {old new : List Nat} {bs : List Bool} (h : TreeBits old new bs) :
    new.length = old.length ∧ (∀ x ∈ new, x < 17) := by
  cases h with
  | mk pre rs h20 h16 hk hv hl => exact ⟨(lengths_size hl hv).1, lengths_small hl⟩

/-! ## Slots -/

theorem slots_table (slot : Nat) (h : slot < 50) :
    ∃ mx, lookup positionSlots slot = .ok (slotBase slot, mx, slotExtra slot) := by
  have : ∀ slot : Fin 50, (match lookup positionSlots slot with
      | .ok (b, _, n) => decide (b = slotBase slot ∧ n = slotExtra slot) | .error _ => false) = true := by
    decide +kernel
  have := this ⟨slot, h⟩
  simp only at this
  split at this
  · rename_i b mx n hl
    simp at this
    exact ⟨mx, by rw [hl, this.1, this.2]⟩
  · simp at this

theorem slots_level {level n : Nat} (h : Slots level n) : lzxSlots level = .ok n ∧ n ≤ 50 := by
  obtain ⟨h1, h2, h3⟩ := h
  have hn : n ≤ 50 := by
    by_contra hc
    unfold slotBase at h3
    rw [if_neg (by omega), if_neg (by omega)] at h3
    have : 2 ^ level ≤ 2 ^ 21 := Nat.pow_le_pow_right (by omega) h2
    omega
  refine ⟨?_, hn⟩
  have key : ∀ n : Fin 51, ∀ l : Fin 7, slotBase n = 2 ^ (15 + l.val) →
      (match lzxSlots (15 + l.val) with | .ok m => decide (m = n.val) | .error _ => false) = true := by
    decide +kernel
  have := key ⟨n, by omega⟩ ⟨level - 15, by omega⟩ (by simp only; rw [h3]; congr 1; omega)
  simp only at this
  rw [show 15 + (level - 15) = level by omega] at this
  split at this
  · rename_i m hm
    simp at this
    rw [hm, this]
  · simp at this

/-! ## Matches -/

/-- Tables of a block that decode its codes. -/
structure Tables (c : Coding) (blockType : Nat) (alignedTree mainTree lengthTree : Table) : Prop where
  kMain : Kraft c.main
  kLens : Kraft c.lens
  main : Codes c.main mainTree
  lens : Codes c.lens lengthTree
  bMain : ∀ i, c.main.getD i 0 ≤ 257
  bLens : ∀ i, c.lens.getD i 0 ≤ 257
  kind : (c.aligned = none ∧ blockType = 1) ∨ (∃ al, c.aligned = some al ∧ blockType = 2 ∧ Kraft al ∧
    Codes al alignedTree ∧ ∀ i, al.getD i 0 ≤ 257)

theorem lzxLength_spec {data : Bytes} {s : InputStream} (hs : stringInputStream data = .ok s)
    (hm : data.length % 2 = 0) {c : Coding} {bt : Nat} {t1 t2 t3 : Table} (ht : Tables c bt t1 t2 t3) {n k : Nat}
    {lb : List Bool} (h : LengthBits c n k lb) (addr : Nat) (hat : BitsAt .middle data addr lb) :
    lzxLength s t3 k addr = .ok (n, addr + lb.length) ∧ k < 8 ∧ 2 ≤ n := by
  cases h with
  | short k hk =>
    refine ⟨?_, by omega, by omega⟩
    unfold lzxLength
    rw [if_neg (by omega)]
    rfl
  | long k hk hc =>
    refine ⟨?_, by omega, by omega⟩
    unfold lzxLength
    rw [if_pos rfl, huffmanCode_word hs (fun _ => hm) ht.kLens ht.lens hc (ht.bLens _) hat]
    simp only [length_codeWord]

theorem slotBase_ge (slot : Nat) (h : 3 ≤ slot) : 3 ≤ slotBase slot := by
  unfold slotBase
  split
  · omega
  · split
    · have h1 : 2 ^ 1 ≤ 2 ^ (slot / 2 - 1) := Nat.pow_le_pow_right (by omega) (by omega)
      have h2 : 2 * 2 ^ (slot / 2 - 1) ≤ (2 + slot % 2) * 2 ^ (slot / 2 - 1) := Nat.mul_le_mul_right _ (by omega)
      omega
    · omega

theorem slotExtra_pos (slot : Nat) (h : 4 ≤ slot) : 0 < slotExtra slot := by
  unfold slotExtra
  rw [if_neg (by omega)]
  split <;> omega

theorem lzxOffset_spec {data : Bytes} {s : InputStream} (hs : stringInputStream data = .ok s)
    (hm : data.length % 2 = 0) {c : Coding} {bt : Nat} {t1 t2 t3 : Table} (ht : Tables c bt t1 t2 t3)
    {extra x base d : Nat} {b : List Bool} (h : ExtraBits c extra x b) (he : 0 < extra) (hb : 2 ≤ base)
    (hd : d + 2 = base + x) (addr : Nat) (hat : BitsAt .middle data addr b) :
    lzxOffset s bt t1 base extra addr = .ok (d, addr + b.length) := by
  unfold lzxOffset
  cases h with
  | verbatim _ _ hx hk =>
    have hc : bt = 1 ∨ extra < 3 := by
      rcases hk with hk | hk
      · rcases ht.kind with ⟨_, h1⟩ | ⟨al, h1, _⟩
        · exact Or.inl h1
        · rw [hk] at h1; cases h1
      · exact Or.inr hk
    rw [if_pos hc, readNum hs hm he hx hat]
    simp only [length_toBitsMSB]
    congr 2
    omega
  | aligned al _ _ hx ha h3 hc =>
    obtain ⟨a1, a2⟩ := hat.append
    rw [length_toBitsMSB] at a2
    rcases ht.kind with ⟨h1, _⟩ | ⟨al', h1, h2, h4, h5, h6⟩
    · rw [ha] at h1; cases h1
    · rw [ha] at h1
      cases h1
      rw [if_neg (by omega)]
      have hx8 : x / 8 < 2 ^ (extra - 3) := by
        rw [Nat.div_lt_iff_lt_mul (by omega)]
        have : 2 ^ extra = 2 ^ (extra - 3) * 8 := by
          rw [show (8 : Nat) = 2 ^ 3 by norm_num, ← Nat.pow_add]; congr 1; omega
        omega
      have hpos : lzxVerbatim s base extra addr = .ok (base - 2 + x / 8 * 8, addr + (extra - 3)) := by
        unfold lzxVerbatim
        by_cases h : 3 < extra
        · rw [if_pos h, readNum hs hm (by omega) hx8 a1]
        · rw [if_neg h]
          have : extra = 3 := by omega
          subst this
          have : x / 8 = 0 := by simpa using hx8
          rw [this]
          rfl
      rw [hpos]
      simp only
      rw [huffmanCode_word hs (fun _ => hm) h4 h5 hc (h6 _) a2]
      simp only [List.length_append, length_toBitsMSB, length_codeWord]
      congr 2
      · omega
      · omega

theorem lzxMatch_spec {data : Bytes} {s : InputStream} (hs : stringInputStream data = .ok s)
    (hm : data.length % 2 = 0) {c : Coding} {bt : Nat} {t1 t2 t3 : Table} (ht : Tables c bt t1 t2 t3)
    {n k d slot : Nat} {lb db : List Bool} {r r' : Recent} (hl : LengthBits c n k lb)
    (hd : DistanceBits c r d slot db r') (hslot : slot < 50) (addr : Nat) (hat : BitsAt .middle data addr (lb ++ db)) :
    lzxMatch s bt t1 t3 r (256 + 8 * slot + k) addr = .ok (n, d, r', addr + (lb ++ db).length) := by
  obtain ⟨a1, a2⟩ := hat.append
  obtain ⟨h1, hk, hn⟩ := lzxLength_spec hs hm ht hl addr a1
  obtain ⟨mx, hs'⟩ := slots_table slot hslot
  unfold lzxMatch
  rw [show (256 + 8 * slot + k - 256) / 8 = slot by omega, show (256 + 8 * slot + k - 256) % 8 = k by omega, hs']
  simp only
  rw [h1]
  simp only
  cases hd with
  | first r0 r1 r2 => simp [slotExtra, slotBase, lzxRecent]
  | second r0 r1 r2 => simp [slotExtra, slotBase, lzxRecent]
  | third r0 r1 r2 => simp [slotExtra, slotBase, lzxRecent]
  | new r0 r1 r2 d slot x b h3 hd he =>
    have hb := slotBase_ge slot h3
    by_cases h4 : slot = 3
    · subst h4
      have he0 : slotExtra 3 = 0 := rfl
      have hb0 : slotBase 3 = 3 := rfl
      rw [he0] at he
      rw [he0, hb0, if_pos rfl]
      cases he with
      | verbatim _ _ hx _ =>
        have : x = 0 := by simpa using hx
        subst this
        rw [hb0] at hd
        have : d = 1 := by omega
        subst this
        simp [lzxRecent, toBitsMSB]
      | aligned al _ _ _ _ h _ => omega
    · have := slotExtra_pos slot (by omega)
      rw [if_neg (by omega), lzxOffset_spec hs hm ht he this (by omega) hd _ a2]
      simp [Nat.add_assoc]

/-! ## Codes -/

theorem lzCopy_append (pre w : Bytes) (d n : Nat) (h0 : 0 < d) (h : d ≤ w.length) :
    lzCopy (pre ++ w) d n = pre ++ lzCopy w d n := by
  rw [lzCopy_eq _ _ _ h0 (by simp; omega), lzCopy_eq _ _ _ h0 h, List.append_assoc]
  congr 2
  apply List.map_congr_left
  intro i _
  have := Nat.mod_lt i h0
  rw [List.getD_eq_getElem?_getD, List.getD_eq_getElem?_getD, List.getElem?_append_right (by simp; omega)]
  congr 2
  simp
  omega

theorem length_lzCopy (w : Bytes) (d n : Nat) : (lzCopy w d n).length = w.length + n := by
  induction n with
  | zero => rfl
  | succ n ih => simp only [lzCopy]; rw [List.length_append, ih]; simp; omega

theorem framePad_spec {total addr : Nat} {pad : List Bool} (h0 : total ≠ 0)
    (h : if total % frame = 0 then pad.length < 16 ∧ (addr + pad.length) % 16 = 0 else pad = []) :
    lzxFramePad total addr = .ok (addr + pad.length) := by
  unfold lzxFramePad
  unfold frame at h
  by_cases ht : total % 32768 = 0
  · rw [if_pos ht] at h
    rw [if_pos ⟨ht, h0⟩]
    have hpad : Tools.paddingSize addr 16 = .ok (pad.length : Int) := by
      unfold Tools.paddingSize
      rw [if_neg (by omega)]
      have : (addr : Int).fmod 16 = ((addr % 16 : Nat) : Int) := by
        rw [Int.fmod_eq_emod_of_nonneg _ (by omega)]; omega
      rw [this]
      split
      · congr 1; omega
      · congr 1; omega
    rw [hpad]
    simp
  · rw [if_neg ht] at h
    rw [if_neg (by tauto)]
    simp [h]

/-- The kept window: all the data, or at least the last `2 ^ level` bytes. -/
def Window (level : Nat) (data window : Bytes) : Prop :=
  ∃ pre, data = pre ++ window ∧ (pre = [] ∨ 2 ^ level ≤ window.length)

theorem code_grows {level slots : Nat} {c : Coding} {d d' : Bytes} {r r' : Recent} {b : List Bool}
    (h : CodeBits level slots c d r b d' r') : d.length < d'.length := by
  cases h with
  | lit x _ => simp
  | copy _ n k dist slot lb db hl _ _ _ _ _ _ _ =>
    rw [length_lzCopy]
    cases hl <;> omega

theorem codes_grow {level slots : Nat} {c : Coding} {pos : Nat} {d d' : Bytes} {r r' : Recent} {bs : List Bool}
    (h : CodesBits level slots c pos d r bs d' r') : d.length ≤ d'.length := by
  induction h with
  | nil => exact Nat.le_refl _
  | cons pos d d1 d2 r r1 r2 b pad bs hcode hpad hrest ih =>
    have := code_grows hcode
    omega

theorem lzxCodes_spec {data : Bytes} {s : InputStream} (hs : stringInputStream data = .ok s)
    (hm : data.length % 2 = 0) {level slots : Nat} (hslots : slots ≤ 50) {c : Coding} {bt : Nat} {t1 t2 t3 : Table}
    (ht : Tables c bt t1 t2 t3) {pos : Nat} {d d' : Bytes} {r r' : Recent} {bs : List Bool}
    (h : CodesBits level slots c pos d r bs d' r') :
    ∀ (curlen size fuel decoded addr : Nat) (w : Bytes), d.length = curlen + decoded → d'.length = curlen + size →
      lzxFramePad (curlen + decoded) addr = .ok pos → size ≤ fuel + decoded → Window level d w →
      BitsAt .middle data pos bs →
      ∃ (addr' : Nat) (w' : Bytes), lzxCodes s bt t1 t2 t3 curlen size fuel decoded addr w r = .ok (addr', w', r') ∧
        lzxFramePad (curlen + size) addr' = .ok (pos + bs.length) ∧ Window level d' w' ∧
        w'.length + d.length = w.length + d'.length := by
  induction h with
  | nil pos d r =>
    intro curlen size fuel decoded addr w h1 h2 hp hf hw hat
    have : decoded = size := by omega
    subst this
    refine ⟨addr, w, ?_, by simpa using hp, hw, rfl⟩
    cases fuel with
    | zero => rfl
    | succ fuel => simp only [lzxCodes]; rw [if_neg (by omega)]
  | cons pos d d1 d2 r r1 r2 b pad bs hcode hpad hrest ih =>
    intro curlen size fuel decoded addr w h1 h2 hp hf hw hat
    obtain ⟨a1, a2⟩ := hat.append
    obtain ⟨a3, a4⟩ := a2.append
    have g1 := code_grows hcode
    have g2 := codes_grow hrest
    have hpad' := framePad_spec (total := d1.length) (addr := pos + b.length) (pad := pad) (by omega) hpad
    cases fuel with
    | zero => omega
    | succ fuel =>
      simp only [lzxCodes]
      rw [if_pos (by omega), hp]
      simp only
      cases hcode with
      | lit x hc =>
        rw [huffmanCode_word hs (fun _ => hm) ht.kMain ht.main hc (ht.bMain _) a1]
        have hx : x.toNat < 256 := x.toNat_lt
        simp only [hx, if_true, UInt8.ofNat_toNat]
        simp only [List.length_append, List.length_singleton] at g1 g2 hpad' ih
        have hw' : Window level (d ++ [x]) (w ++ [x]) := by
          obtain ⟨pre, e, hp⟩ := hw
          refine ⟨pre, by rw [e, List.append_assoc], hp.imp id (fun h => by simp; omega)⟩
        rw [← length_codeWord]
        obtain ⟨addr', w', e1, e2, e3, e4⟩ := ih curlen size fuel (decoded + 1) (pos + (codeWord c.main x.toNat).length)
          (w ++ [x]) (by omega) h2 (by rw [← Nat.add_assoc, ← h1]; exact hpad') (by omega) hw' a4
        refine ⟨addr', w', e1, ?_, e3, ?_⟩
        · rw [e2]; simp only [List.length_append]; congr 1; omega
        · simp only [List.length_append, List.length_singleton] at e4; omega
      | copy _ n k dist slot lb db hl hd hslot hd0 hdl hdw hfr hc =>
        obtain ⟨b1, b2⟩ := a1.append
        rw [huffmanCode_word hs (fun _ => hm) ht.kMain ht.main hc (ht.bMain _) b1]
        simp only
        rw [if_neg (by omega)]
        rw [← length_codeWord, lzxMatch_spec hs hm ht hl hd (by omega) _ b2]
        simp only
        obtain ⟨pre, e, hpre⟩ := hw
        have hdw' : dist ≤ w.length := by
          rcases hpre with hpre | hpre
          · rw [e, hpre] at hdl; simpa using hdl
          · omega
        rw [extendData_spec w _ _ hd0 hdw']
        simp only
        rw [length_lzCopy] at g1 g2 hpad' ih
        have hw' : Window level (lzCopy d dist n) (lzCopy w dist n) := by
          refine ⟨pre, by rw [e, lzCopy_append _ _ _ _ hd0 hdw'], hpre.imp id (fun h => by rw [length_lzCopy]; omega)⟩
        obtain ⟨addr', w', e1, e2, e3, e4⟩ := ih curlen size fuel (decoded + n)
          (pos + (codeWord c.main (256 + 8 * slot + k) ++ (lb ++ db)).length)
          (lzCopy w dist n) (by omega) h2 (by rw [← Nat.add_assoc, ← h1]; exact hpad') (by omega) hw' a4
        refine ⟨addr', w', ?_, ?_, e3, ?_⟩
        · rw [← e1]; congr 1; simp only [List.length_append]; omega
        · rw [e2]; simp only [List.length_append]; congr 1; omega
        · rw [length_lzCopy] at e4; omega

/-! ## Stored bytes -/

theorem bitsMSB_inj : ∀ a b : Bytes, a.length = b.length → bitsMSB a = bitsMSB b → a = b
  | [], [], _, _ => rfl
  | [], _ :: _, h, _ => by simp at h
  | _ :: _, [], h, _ => by simp at h
  | x :: a, y :: b, hl, h => by
    rw [bitsMSB_cons, bitsMSB_cons] at h
    obtain ⟨h1, h2⟩ := List.append_inj h (by simp [byteMSB])
    have hxy : x = y := by
      have := congrArg ofBitsMSB h1
      rw [ofBitsMSB_byteMSB, ofBitsMSB_byteMSB] at this
      exact UInt8.toNat_inj.1 this
    rw [hxy, bitsMSB_inj a b (by simpa using hl) h2]

theorem swapPairs_swapPairs (l : Bytes) : swapPairs (swapPairs l) = l := by
  fun_induction swapPairs l with
  | case1 a b rest ih => simp [swapPairs, ih]
  | case2 l h =>
    match l with
    | [] => rfl
    | [a] => rfl
    | a :: b :: r => exact absurd rfl (h a b r)

theorem stored_prefix {data body : Bytes} {k : Nat} (hbody : body.length % 2 = 0)
    (h : BitsAt .middle data (16 * k) (fileBits body)) : body <+: data.drop (2 * k) := by
  unfold BitsAt at h
  rw [fileBits_eq] at h
  simp only [streamBits] at h
  rw [show 16 * k = 8 * (2 * k) by omega, ← bitsMSB_drop, ← swapPairs_drop] at h
  have hlen := h.length_le
  rw [length_bitsMSB, length_bitsMSB, Stream.length_swapPairs, Stream.length_swapPairs] at hlen
  have he := List.prefix_iff_eq_take.1 h
  rw [length_bitsMSB, ← bitsMSB_take, Stream.length_swapPairs] at he
  obtain ⟨m, hm⟩ : ∃ m, body.length = 2 * m := ⟨body.length / 2, by omega⟩
  have he2 := bitsMSB_inj _ _ (by
    rw [List.length_take, Stream.length_swapPairs, Stream.length_swapPairs]; omega) he
  rw [hm, ← swapPairs_take _ _ (by omega)] at he2
  have he3 := congrArg swapPairs he2
  rw [swapPairs_swapPairs, swapPairs_swapPairs] at he3
  rw [he3]
  exact List.take_prefix _ _

theorem ofBytesLE_le32 (v : Nat) (h : v < 2 ^ 32) : ofBytesLE (le32 v) = v := by
  simp only [le32, ofBytesLE, UInt8.toNat_ofNat']
  omega

theorem read_le32 {data : Bytes} {s : InputStream} (hs : stringInputStream data = .ok s) {k v : Nat} (hv : v < 2 ^ 32)
    (h : le32 v <+: data.drop k) : readBits s (8 * k : Nat) 32 .little = .ok v := by
  have hat : BitsAt .little data (8 * k) (bitsLSB (le32 v)) := by
    obtain ⟨r, hr⟩ := h
    refine ⟨bitsLSB r, ?_⟩
    simp only [streamBits]
    rw [← bitsLSB_drop, ← hr, bitsLSB_append]
  have := readBits_at hs (by simp) hat (by simp [le32, bitsLSB, byteLSB])
  rw [length_bitsLSB] at this
  simp only [← ofBytesLE_eq, ofBytesLE_le32 v hv] at this
  exact this

theorem padding16 (addr : Nat) {pad : List Bool} (h0 : 0 < pad.length) (h1 : pad.length ≤ 16)
    (h : (addr + pad.length) % 16 = 0) : ∃ p, Tools.paddingSize addr 16 = .ok p ∧
      (if p ≠ 0 then p.toNat else 16) = pad.length := by
  unfold Tools.paddingSize
  rw [if_neg (by omega)]
  have : (addr : Int).fmod 16 = ((addr % 16 : Nat) : Int) := by
    rw [Int.fmod_eq_emod_of_nonneg _ (by omega)]; omega
  rw [this]
  by_cases hz : addr % 16 = 0
  · rw [hz]
    exact ⟨0, by simp, by simp; omega⟩
  · rw [if_pos (by omega)]
    refine ⟨_, rfl, ?_⟩
    rw [if_pos (by omega)]
    omega

theorem lzxStored_spec {data : Bytes} {s : InputStream} (hs : stringInputStream data = .ok s)
    {bytes fill : Bytes} {r0 r1 r2 addr : Nat} {pad : List Bool} (hb : 0 < bytes.length)
    (h0 : r0 < 2 ^ 32) (h1 : r1 < 2 ^ 32) (h2 : r2 < 2 ^ 32) (hp0 : 0 < pad.length) (hp1 : pad.length ≤ 16)
    (hp : (addr + pad.length) % 16 = 0) (hf : fill.length = bytes.length % 2) (st : LzxState)
    (hat : BitsAt .middle data addr (pad ++ fileBits (le32 r0 ++ le32 r1 ++ le32 r2 ++ bytes ++ fill))) :
    lzxStored s bytes.length addr st
      = .ok (addr + (pad ++ fileBits (le32 r0 ++ le32 r1 ++ le32 r2 ++ bytes ++ fill)).length,
          { st with window := st.window ++ bytes, recent := (r0, r1, r2) }, true) := by
  obtain ⟨_, a⟩ := hat.append
  obtain ⟨k, hk⟩ : ∃ k, addr + pad.length = 16 * k := ⟨(addr + pad.length) / 16, by omega⟩
  rw [hk] at a
  have hl4 : ∀ v, (le32 v).length = 4 := fun v => rfl
  have hpre := stored_prefix (by simp only [List.length_append, hl4]; omega) a
  obtain ⟨rest, hrest⟩ := hpre
  simp only [List.append_assoc] at hrest
  have p0 : le32 r0 <+: data.drop (2 * k) := ⟨_, hrest⟩
  have d1 : data.drop (2 * k + 4) = le32 r1 ++ (le32 r2 ++ (bytes ++ (fill ++ rest))) := by
    rw [← List.drop_drop, ← hrest]; exact List.drop_left' (hl4 _)
  have d2 : data.drop (2 * k + 8) = le32 r2 ++ (bytes ++ (fill ++ rest)) := by
    rw [show 2 * k + 8 = 2 * k + 4 + 4 by omega, ← List.drop_drop, d1]; exact List.drop_left' (hl4 _)
  have d3 : data.drop (2 * k + 12) = bytes ++ (fill ++ rest) := by
    rw [show 2 * k + 12 = 2 * k + 8 + 4 by omega, ← List.drop_drop, d2]; exact List.drop_left' (hl4 _)
  obtain ⟨p, hp', hpl⟩ := padding16 addr hp0 hp1 hp
  have e0 := read_le32 hs (k := 2 * k) h0 p0
  have e1 := read_le32 hs (k := 2 * k + 4) h1 ⟨_, d1.symm⟩
  have e2 := read_le32 hs (k := 2 * k + 8) h2 ⟨_, d2.symm⟩
  have hlen : 2 * k + 12 + bytes.length ≤ data.length := by
    have := congrArg List.length d3
    simp only [List.length_drop, List.length_append] at this
    omega
  have e3 := readBytes_string s data (_root_.Props.stringInputStream_ok data s hs).1 (2 * k + 12) bytes.length hlen
  rw [d3, List.take_left] at e3
  unfold lzxStored
  rw [hp']
  simp only
  rw [hpl, hk]
  rw [show 8 * (2 * k) = 16 * k by omega] at e0
  rw [show 8 * (2 * k + 4) = 16 * k + 32 by omega] at e1
  rw [show 8 * (2 * k + 8) = 16 * k + 64 by omega] at e2
  rw [show 8 * (2 * k + 12) = 16 * k + 96 by omega] at e3
  rw [e0]
  simp only
  rw [e1]
  simp only
  rw [e2]
  simp only
  rw [if_neg (by omega), e3]
  simp only
  congr 2
  rw [fileBits_eq]
  simp only [streamBits, List.length_append, length_bitsMSB, Stream.length_swapPairs, hl4]
  split <;> omega

/-! ## Blocks -/

/-- The state of the parser between two blocks. -/
structure Rel (level slots : Nat) (x : State) (st : LzxState) : Prop where
  window : Window level x.data st.window
  out : st.out.length = x.data.length
  recent : st.recent = x.recent
  start : st.start.getD (List.replicate 256 0) = x.start
  rest : st.rest.getD (List.replicate (slots * 8) 0) = x.rest
  lens : st.lens.getD (List.replicate 249 0) = x.lens
  nStart : x.start.length = 256
  nRest : x.rest.length = slots * 8
  nLens : x.lens.length = 249

/-- Whether the type of a block is written as `t`. -/
theorem lzxCompressed_spec {data : Bytes} {s : InputStream} (hs : stringInputStream data = .ok s)
    (hm : data.length % 2 = 0) {level slots : Nat} (hslots : slots ≤ 50) {bt size addr pos : Nat}
    {al : Option (List Nat)} {x y : State} {bs : List Bool} {t1 : Table} (hal : lzxAligned s bt addr = .ok (t1, pos))
    (hkind : (al = none ∧ bt = 1) ∨ (∃ l, al = some l ∧ bt = 2 ∧ Kraft l ∧ Codes l t1 ∧ ∀ i, l.getD i 0 ≤ 257))
    (h : PackedBits level slots pos al x y bs) (hsize : y.data.length = x.data.length + size)
    (hfr : x.data.length % 32768 = 0 → x.data.length = 0) {st : LzxState} (hst : Rel level slots x st)
    (hat : BitsAt .middle data pos bs) :
    ∃ (addr' : Nat) (st' : LzxState),
      lzxCompressed s slots bt size addr st = .ok (addr', st', decide (y.start.getD 0xE8 0 ≠ 0)) ∧
      lzxFramePad y.data.length addr' = .ok (pos + bs.length) ∧ st'.window.length = st.window.length + size ∧
      st'.out = st.out ∧ Window level y.data st'.window ∧ st'.recent = y.recent ∧ st'.start = some y.start ∧
      st'.rest = some y.rest ∧ st'.lens = some y.lens ∧ y.start.length = 256 ∧ y.rest.length = slots * 8 ∧
      y.lens.length = 249 := by
  cases h with
  | mk b1 b2 b3 cs h1 h2 h3 hk1 hk2 hc =>
    obtain ⟨a123, a4⟩ := hat.append
    obtain ⟨a12, a3⟩ := a123.append
    obtain ⟨a1, a2⟩ := a12.append
    have s1 := treeBits_size h1
    have s2 := treeBits_size h2
    have s3 := treeBits_size h3
    unfold lzxCompressed
    rw [hal]
    simp only
    rw [lzxTree_spec hs hm h1 st.start 256 pos hst.nStart hst.start a1]
    simp only
    rw [lzxTree_spec hs hm h2 st.rest (slots * 8) _ hst.nRest hst.rest a2]
    simp only
    obtain ⟨t2, ht2⟩ := buildTree_ok (y.start ++ y.rest) (by
      intro e
      have := congrArg List.length e
      rw [List.length_append, s1.1, hst.nStart] at this
      simp at this)
    obtain ⟨t3, ht3⟩ := buildTree_ok y.lens (by
      intro e
      have := congrArg List.length e
      rw [s3.1, hst.nLens] at this
      simp at this)
    rw [ht2]
    simp only
    rw [List.length_append, ← Nat.add_assoc] at a3
    rw [lzxTree_spec hs hm h3 st.lens 249 _ hst.nLens hst.lens a3]
    simp only
    rw [ht3]
    simp only
    have ht : Tables ⟨y.start ++ y.rest, y.lens, al⟩ bt t1 t2 t3 :=
      { kMain := hk1
        kLens := hk2
        main := buildTree_get ht2
        lens := buildTree_get ht3
        bMain := getD_le_of_forall (fun z hz => by
          rcases List.mem_append.1 hz with hz | hz
          · have := s1.2 z hz; omega
          · have := s2.2 z hz; omega)
        bLens := getD_le_of_forall (fun z hz => by have := s3.2 z hz; omega)
        kind := hkind }
    have hpad : lzxFramePad (st.out.length + 0) (pos + b1.length + b2.length + b3.length)
        = .ok (pos + (b1 ++ b2 ++ b3).length) := by
      unfold lzxFramePad
      rw [Nat.add_zero, hst.out, if_neg (by rintro ⟨ha, hb⟩; exact hb (hfr ha))]
      simp only [List.length_append]
      congr 1
      omega
    obtain ⟨addr', w', e1, e2, e3, e4⟩ := lzxCodes_spec hs hm hslots ht hc st.out.length size size 0
      (pos + b1.length + b2.length + b3.length) st.window (by rw [hst.out]; rfl) (by rw [hst.out]; exact hsize) hpad
      (by omega) hst.window a4
    rw [hst.recent, e1]
    simp only
    refine ⟨addr', _, rfl, ?_, ?_, rfl, e3, rfl, rfl, rfl, rfl, by rw [s1.1, hst.nStart], by rw [s2.1, hst.nRest],
      by rw [s3.1, hst.nLens]⟩
    · rw [hst.out, ← hsize] at e2
      rw [e2]
      simp only [List.length_append]
      congr 1
      omega
    · simp only
      omega

theorem pySlice_last {α : Type} (l : List α) (n : Nat) (h : 0 < n) (w : List α) (hl : l.length = n) :
    pySlice (w ++ l) (-(n : Int)) (w ++ l).length = l := by
  unfold pySlice
  have h1 : sliceBound (w ++ l).length (-(n : Int)) = w.length := by
    unfold sliceBound
    rw [if_pos (by omega)]
    simp only [List.length_append]
    omega
  have h2 : sliceBound (w ++ l).length ((w ++ l).length : Int) = (w ++ l).length := by
    unfold sliceBound
    rw [if_neg (by omega)]
    simp only [Int.toNat_natCast, Nat.min_self]
  rw [h1, h2, List.drop_left]
  apply List.take_of_length_le
  simp

theorem window_cut {level : Nat} {d w : Bytes} (h : Window level d w) :
    Window level d (pySlice w (-((2 ^ level : Nat) : Int)) w.length) := by
  have hpos : 0 < 2 ^ level := Nat.pos_of_ne_zero (by positivity)
  by_cases hl : w.length ≤ 2 ^ level
  · have : pySlice w (-((2 ^ level : Nat) : Int)) w.length = w := by
      unfold pySlice
      have h1 : sliceBound w.length (-((2 ^ level : Nat) : Int)) = 0 := by
        unfold sliceBound
        rw [if_pos (by omega)]
        omega
      have h2 : sliceBound w.length (w.length : Int) = w.length := by
        unfold sliceBound
        rw [if_neg (by omega)]
        simp
      rw [h1, h2]
      simp
    rw [this]
    exact h
  · have hsplit : w = w.take (w.length - 2 ^ level) ++ w.drop (w.length - 2 ^ level) := (List.take_append_drop _ _).symm
    have hlen : (w.drop (w.length - 2 ^ level)).length = 2 ^ level := by simp; omega
    have : pySlice w (-((2 ^ level : Nat) : Int)) w.length = w.drop (w.length - 2 ^ level) := by
      have := pySlice_last (w.drop (w.length - 2 ^ level)) (2 ^ level) hpos (w.take (w.length - 2 ^ level)) hlen
      rw [← hsplit] at this
      exact this
    rw [this]
    obtain ⟨pre, e, _⟩ := h
    refine ⟨pre ++ w.take (w.length - 2 ^ level), ?_, Or.inr (by rw [hlen])⟩
    rw [List.append_assoc, List.take_append_drop, e]

theorem codes_prefix {level slots pos : Nat} {c : Coding} {d d' : Bytes} {r r' : Recent} {bs : List Bool}
    (h : CodesBits level slots c pos d r bs d' r') : d <+: d' := by
  induction h with
  | nil => exact List.prefix_rfl
  | cons pos d d1 d2 r r1 r2 b pad bs hcode hpad hrest ih =>
    refine List.IsPrefix.trans ?_ ih
    cases hcode with
    | lit x hc => exact List.prefix_append _ _
    | copy _ n k dist slot lb db hl hd hslot hd0 hdl hdw hfr hc =>
      rw [lzCopy_eq _ _ _ hd0 hdl]; exact List.prefix_append _ _

theorem packed_prefix {level slots pos : Nat} {al : Option (List Nat)} {x y : State} {bs : List Bool}
    (h : PackedBits level slots pos al x y bs) : x.data <+: y.data := by
  cases h with
  | mk b1 b2 b3 cs h1 h2 h3 hk1 hk2 hc => exact codes_prefix hc

theorem blocks_prefix {level slots pos : Nat} {x z : State} {is : List Info} {bs : List Bool}
    (h : BlocksBits level slots pos x is z bs) : x.data <+: z.data := by
  induction h with
  | nil => exact List.prefix_rfl
  | cons pos x y z i is b bs hb hbs ih =>
    refine List.IsPrefix.trans ?_ ih
    cases hb with
    | verbatim _ size bs h0 h24 hsize hp => exact packed_prefix hp
    | aligned _ size al bs h0 h24 hsize h8 hlt hk hp => exact packed_prefix hp
    | stored bytes fill r0 r1 r2 pad h0 h24 hr0 hr1 hr2 hp0 hp1 hp hf => exact List.prefix_append _ _

/-- What the parser makes of a block: the address behind it, and the state of which `out` is still
to be translated. -/
theorem lzxContents_spec {data : Bytes} {s : InputStream} (hs : stringInputStream data = .ok s)
    (hm : data.length % 2 = 0) {level slots pos : Nat} (hslots : slots ≤ 50) {x y : State} {i : Info} {b : List Bool}
    (h : BlockBits level slots pos x i y b) {st : LzxState} (hst : Rel level slots x st)
    (hfr : i.stored = false → x.data.length % 32768 = 0 → x.data.length = 0) (hat : BitsAt .middle data pos b) :
    ∃ (bt addr' : Nat) (st' : LzxState) (chunk w0 : Bytes), readBits s pos 3 .middle = .ok bt ∧
      readBits s (pos + 3 : Nat) 24 .middle = .ok i.size ∧
      lzxContents s slots bt i.size (pos + 27) st = .ok (addr', st', i.e8) ∧
      (if i.stored then addr' = pos + b.length else lzxFramePad y.data.length addr' = .ok (pos + b.length)) ∧
      st'.window = w0 ++ chunk ∧ chunk.length = i.size ∧ 0 < i.size ∧ y.data = x.data ++ chunk ∧ 27 ≤ b.length ∧
      ∀ out, out.length = y.data.length → Rel level slots y { st' with out := out } := by
  have hgen : ∀ (d e w w' : Bytes) (size : Nat), Window level e w' → w'.length = w.length + size →
      e.length = d.length + size → d <+: e → ∃ chunk w0, w' = w0 ++ chunk ∧ chunk.length = size ∧ e = d ++ chunk := by
    intro d e w w' size ⟨pre, he, _⟩ hw hl hp
    obtain ⟨chunk, hc⟩ := hp
    have hcl : chunk.length = size := by
      have := congrArg List.length hc
      simp only [List.length_append] at this
      omega
    refine ⟨chunk, w'.take w.length, ?_, hcl, hc.symm⟩
    have h1 : e.drop (e.length - size) = chunk := by
      rw [← hc]
      have : (d ++ chunk).length - size = d.length := by simp; omega
      rw [this, List.drop_left]
    have h2 : e.drop (e.length - size) = w'.drop w.length := by
      rw [he]
      have : (pre ++ w').length - size = pre.length + w.length := by simp; omega
      rw [this, ← List.drop_drop, List.drop_left]
    rw [← h1, h2, List.take_append_drop]
  cases h with
  | verbatim _ size bs h0 h24 hsize hp =>
    obtain ⟨a1, a2⟩ := hat.append
    obtain ⟨a3, a4⟩ := a2.append
    simp only [length_toBitsMSB] at a3 a4
    have hfr := hfr rfl
    obtain ⟨addr', st', e1, e2, e3, e4, e5, e6, e7, e8, e9, n1, n2, n3⟩ := lzxCompressed_spec hs hm hslots (bt := 1) (size := size)
      (addr := pos + 27) (pos := pos + 27) (t1 := []) rfl (Or.inl ⟨rfl, rfl⟩) hp hsize hfr hst a4
    obtain ⟨chunk, w0, c1, c2, c3⟩ := hgen x.data y.data st.window st'.window size e5 e3 hsize (packed_prefix hp)
    refine ⟨1, addr', st', chunk, w0, readNum hs hm (by omega) (by omega) a1, readNum hs hm (by omega) h24 a3, ?_, ?_,
      c1, c2, h0, c3, ?_, ?_⟩
    · unfold lzxContents
      rw [if_pos (Or.inl rfl), e1]
    · simp only [Bool.false_eq_true, if_false, List.length_append, length_toBitsMSB]
      rw [e2]; congr 1; omega
    · simp only [List.length_append, length_toBitsMSB]; omega
    · intro out ho
      exact { window := e5, out := ho, recent := e6, start := by rw [e7]; rfl, rest := by rw [e8]; rfl,
              lens := by rw [e9]; rfl, nStart := n1, nRest := n2, nLens := n3 }
  | aligned _ size al bs h0 h24 hsize h8 hlt hk hp =>
    obtain ⟨a1, a2⟩ := hat.append
    obtain ⟨a3, a4⟩ := a2.append
    obtain ⟨a5, a6⟩ := a4.append
    simp only [length_toBitsMSB] at a3 a5 a6
    rw [length_flatMap_toBits, h8] at a6
    have hfr := hfr rfl
    obtain ⟨t1, ht1⟩ := buildTree_ok al (by intro e; rw [e] at h8; simp at h8)
    have hal : lzxAligned s 2 (pos + 27) = .ok (t1, pos + 51) := by
      unfold lzxAligned
      have := lzxNumbers_spec hs hm (by omega) al hlt _ a5
      rw [h8] at this
      rw [if_pos rfl, this]
      simp only
      rw [ht1]
    obtain ⟨addr', st', e1, e2, e3, e4, e5, e6, e7, e8, e9, n1, n2, n3⟩ := lzxCompressed_spec hs hm hslots (bt := 2) (size := size)
      (addr := pos + 27) hal (Or.inr ⟨al, rfl, rfl, hk, buildTree_get ht1, getD_le_of_forall (fun z hz => by
        have := hlt z hz; omega)⟩) hp hsize hfr hst a6
    obtain ⟨chunk, w0, c1, c2, c3⟩ := hgen x.data y.data st.window st'.window size e5 e3 hsize (packed_prefix hp)
    refine ⟨2, addr', st', chunk, w0, readNum hs hm (by omega) (by omega) a1, readNum hs hm (by omega) h24 a3, ?_, ?_,
      c1, c2, h0, c3, ?_, ?_⟩
    · unfold lzxContents
      rw [if_pos (Or.inr rfl), e1]
    · simp only [Bool.false_eq_true, if_false, List.length_append, length_toBitsMSB, length_flatMap_toBits, h8]
      rw [e2]; congr 1; omega
    · simp only [List.length_append, length_toBitsMSB]; omega
    · intro out ho
      exact { window := e5, out := ho, recent := e6, start := by rw [e7]; rfl, rest := by rw [e8]; rfl,
              lens := by rw [e9]; rfl, nStart := n1, nRest := n2, nLens := n3 }
  | stored bytes fill r0 r1 r2 pad h0 h24 hr0 hr1 hr2 hp0 hp1 hp hf =>
    obtain ⟨a1, a2⟩ := hat.append
    obtain ⟨a3, a4⟩ := a2.append
    simp only [length_toBitsMSB] at a3 a4
    refine ⟨3, pos + 27 + (pad ++ fileBits (le32 r0 ++ le32 r1 ++ le32 r2 ++ bytes ++ fill)).length, { st with window := st.window ++ bytes, recent := (r0, r1, r2) }, bytes, st.window, readNum hs hm (by omega) (by omega) a1, readNum hs hm (by omega) h24 a3, ?_, ?_,
      rfl, rfl, h0, rfl, ?_, ?_⟩
    · unfold lzxContents
      rw [if_neg (by omega), if_pos rfl]
      exact lzxStored_spec hs h0 hr0 hr1 hr2 hp0 hp1 hp hf st a4
    · simp only [if_true, List.length_append, length_toBitsMSB]; omega
    · simp only [List.length_append, length_toBitsMSB]; omega
    · intro out ho
      obtain ⟨pre, e, hw⟩ := hst.window
      exact { window := ⟨pre, by simp only; rw [e, List.append_assoc], hw.imp id (fun h => by simp; omega)⟩, out := ho,
              recent := rfl, start := hst.start, rest := hst.rest,
              lens := hst.lens, nStart := hst.nStart, nRest := hst.nRest, nLens := hst.nLens }

/-! ## Jumps: lengths -/

theorem length_packInt {v : Int} {b : Bytes} (h : packInt v = .ok b) : b.length = 4 := by
  unfold packInt at h
  split at h
  · cases h; rfl
  · cases h

theorem lzxJump_length {filesize pos : Nat} {data out : Bytes} (h : lzxJump filesize data pos = .ok out) :
    out.length = data.length := by
  unfold lzxJump at h
  split at h
  · cases h
  · rename_i a ha
    have h4 : pos + 5 ≤ data.length := by
      unfold unpackInt at ha
      split at ha
      · rename_i x y z w he
        have := congrArg List.length he
        simp at this
        omega
      · cases ha
    split at h
    · split at h
      · cases h
      · rename_i b hb
        cases h
        have := length_packInt hb
        simp only [List.length_append, List.length_take, List.length_drop]
        omega
    · cases h; rfl

theorem lzxJumps_length (filesize endPos : Nat) (data : Bytes) (pos : Nat) :
    ∀ out, lzxJumps filesize endPos data pos = .ok out → out.length = data.length := by
  fun_induction lzxJumps filesize endPos data pos with
  | case1 data pos h h1 ih => exact ih
  | case2 data pos h h1 h2 ih => exact ih
  | case3 data pos h h1 h2 e he => intro out ho; cases ho
  | case4 data pos h h1 h2 d he ih => intro out ho; rw [ih out ho, lzxJump_length he]
  | case5 data pos h => intro out ho; cases ho; rfl

theorem lzxFixups_length {filesize : Option Nat} {intel : Bool} {curlen : Nat} {out out' : Bytes}
    (h : lzxFixups filesize intel curlen out = .ok out') : out'.length = out.length := by
  unfold lzxFixups at h
  split at h
  · cases h; rfl
  · split at h
    · exact lzxJumps_length _ _ _ _ _ h
    · cases h; rfl

/-- The output for the bytes of some blocks. -/
def translated (filesize : Option Nat) : Bytes → List Info → Bytes → Except PyErr Bytes
  | out, [], _ => .ok out
  | out, i :: is, raw =>
    match lzxFixups filesize i.e8 out.length (out ++ raw.take i.size) with
    | .error e => .error e
    | .ok out => translated filesize out is (raw.drop i.size)

theorem framePad_end {total addr pos : Nat} (h : lzxFramePad total addr = .ok pos) :
    (total % 32768 = 0 ∧ total ≠ 0 ∧ pos % 16 = 0 ∧ addr ≤ pos ∧ pos < addr + 16) ∨ addr = pos := by
  unfold lzxFramePad at h
  split at h
  · rename_i ht
    left
    unfold Tools.paddingSize at h
    rw [if_neg (by omega)] at h
    have : (addr : Int).fmod 16 = ((addr % 16 : Nat) : Int) := by
      rw [Int.fmod_eq_emod_of_nonneg _ (by omega)]; omega
    rw [this] at h
    by_cases hz : addr % 16 = 0
    · rw [hz] at h
      simp at h
      omega
    · rw [if_pos (by omega)] at h
      simp only [Except.ok.injEq] at h
      omega
  · right
    cases h; rfl

theorem framePad_other {total addr pos : Nat} (h : lzxFramePad total addr = .ok pos) (h0 : total % 32768 ≠ 0) :
    addr = pos := by
  rcases framePad_end h with h | h
  · omega
  · exact h

theorem lzxBlock_spec {data : Bytes} {s : InputStream} (hs : stringInputStream data = .ok s)
    (hm : data.length % 2 = 0) {level slots pos : Nat} (hlev : lzxSlots level = .ok slots) (hslots : slots ≤ 50)
    {x y : State} {i : Info} {b : List Bool} (h : BlockBits level slots pos x i y b) {st : LzxState}
    (hst : Rel level slots x st) (hfr : i.stored = false → x.data.length % 32768 = 0 → x.data.length = 0)
    (filesize : Option Nat) (hat : BitsAt .middle data pos b) :
    ∃ (addr' : Nat) (chunk : Bytes),
      (if i.stored then addr' = pos + b.length else lzxFramePad y.data.length addr' = .ok (pos + b.length)) ∧
      chunk.length = i.size ∧ 0 < i.size ∧ y.data = x.data ++ chunk ∧ 27 ≤ b.length ∧
      (∀ e, lzxFixups filesize i.e8 st.out.length (st.out ++ chunk) = .error e →
        lzxBlock s level filesize pos st = .error e) ∧
      (∀ out, lzxFixups filesize i.e8 st.out.length (st.out ++ chunk) = .ok out →
        ∃ st', lzxBlock s level filesize pos st = .ok (addr', st') ∧ st'.out = out ∧ Rel level slots y st') := by
  obtain ⟨bt, addr', st', chunk, w0, e1, e2, e3, e4, e5, e6, e7, e8, e9, e10⟩ :=
    lzxContents_spec hs hm hslots h hst hfr hat
  refine ⟨addr', chunk, e4, e6, e7, e8, e9, ?_, ?_⟩
  · intro e he
    unfold lzxBlock
    rw [e1]
    simp only
    rw [e2]
    simp only
    rw [hlev]
    simp only
    rw [e3]
    simp only
    rw [e5, pySlice_last chunk i.size e7 w0 e6, he]
  · intro out ho
    have hrel := e10 out (by rw [lzxFixups_length ho, List.length_append, hst.out, e8, List.length_append])
    refine ⟨{ st' with out := out, window := pySlice st'.window (-((2 ^ level : Nat) : Int)) st'.window.length }, ?_, rfl, ?_⟩
    · unfold lzxBlock
      rw [e1]
      simp only
      rw [e2]
      simp only
      rw [hlev]
      simp only
      rw [e3]
      simp only
      rw [e5, pySlice_last chunk i.size e7 w0 e6, ho]
    · exact { window := window_cut hrel.window, out := hrel.out, recent := hrel.recent, start := hrel.start,
              rest := hrel.rest, lens := hrel.lens, nStart := hrel.nStart, nRest := hrel.nRest, nLens := hrel.nLens }

theorem block_length {level slots pos : Nat} {x y : State} {i : Info} {b : List Bool}
    (h : BlockBits level slots pos x i y b) : 27 ≤ b.length := by
  cases h <;> simp only [List.length_append, length_toBitsMSB] <;> omega

theorem blocks_data {level slots pos : Nat} {x z : State} {is : List Info} {bs : List Bool}
    (h : BlocksBits level slots pos x is z bs) : is = [] ∨ 27 ≤ bs.length := by
  cases h with
  | nil => exact Or.inl rfl
  | cons =>
    right
    rename_i hb hbs
    have := block_length hb
    rw [List.length_append]
    omega

theorem lzxBlocks_spec {data : Bytes} {s : InputStream} (hs : stringInputStream data = .ok s)
    (hm : data.length % 2 = 0) {level slots : Nat} (hlev : lzxSlots level = .ok slots) (hslots : slots ≤ 50)
    (filesize : Option Nat) {pos : Nat} {x z : State} {is : List Info} {bs : List Bool}
    (h : BlocksBits level slots pos x is z bs) :
    ∀ (size fuel pad : Nat) (st : LzxState), Rel level slots x st → BitsAt .middle data pos bs →
      size = pos + bs.length + pad → pad < 16 → size % 16 = 0 → is.length < fuel → is ≠ [] →
      (∀ i, is.head? = some i → i.stored = false → x.data.length % 32768 = 0 → x.data.length = 0) →
      Apart x.data.length is →
      ∃ chunks, z.data = x.data ++ chunks ∧
        lzxBlocks s size level filesize fuel pos st = translated filesize st.out is chunks := by
  induction h with
  | nil => intro size fuel pad st _ _ _ _ _ _ h; exact absurd rfl h
  | cons pos x y z i is b bs hb hbs ih =>
    intro size fuel pad st hst hat hsize hpad h16 hfuel _ hfr hap
    obtain ⟨a1, a2⟩ := hat.append
    obtain ⟨addr', chunk, e1, e2, e3, e4, e5, e6, e7⟩ := lzxBlock_spec hs hm hlev hslots hb hst (hfr i rfl) filesize a1
    rw [List.length_append] at hsize
    simp only [List.length_cons] at hfuel
    obtain ⟨fuel, rfl⟩ : ∃ f, fuel = f + 1 := ⟨fuel - 1, by omega⟩
    simp only [lzxBlocks]
    rw [if_pos (by omega)]
    have hlen : y.data.length = x.data.length + i.size := by rw [e4, List.length_append, e2]
    -- the rest of the output, whatever it is
    have hne : is ≠ [] → ∃ chunks, z.data = y.data ++ chunks ∧ ∀ st', Rel level slots y st' →
        (if size < addr' + 16 then (.ok st'.out : Except PyErr Bytes)
          else lzxBlocks s size level filesize fuel addr' st') = translated filesize st'.out is chunks := by
      intro hne
      have h27 := (blocks_data hbs).resolve_left hne
      obtain ⟨j, l, hjl⟩ : ∃ j l, is = j :: l := by
        cases is with
        | nil => exact absurd rfl hne
        | cons j l => exact ⟨j, l, rfl⟩
      have hap' := hap
      rw [hjl] at hap'
      simp only [Apart] at hap'
      rw [← hjl, ← hlen] at hap'
      have haddr : addr' = pos + b.length := by
        by_cases hst : i.stored = true
        · rw [if_pos hst] at e1; exact e1
        · rw [if_neg hst] at e1
          exact framePad_other e1 (fun h0 => hst (hap'.1 h0).1)
      subst haddr
      have hfirst : ∀ i, is.head? = some i → i.stored = false → y.data.length % 32768 = 0 → y.data.length = 0 := by
        intro i' hi hs' h0
        rw [hjl] at hi
        simp only [List.head?_cons, Option.some.injEq] at hi
        subst hi
        rw [(hap'.1 h0).2] at hs'
        cases hs'
      have key : ∀ st', Rel level slots y st' → ∃ chunks, z.data = y.data ++ chunks ∧
          lzxBlocks s size level filesize fuel (pos + b.length) st' = translated filesize st'.out is chunks :=
        fun st' hst' => ih size fuel pad st' hst' a2 (by omega) hpad h16 (by omega) hne hfirst hap'.2
      have hz : ∃ chunks, z.data = y.data ++ chunks := by
        obtain ⟨c, hc⟩ := blocks_prefix hbs
        exact ⟨c, hc.symm⟩
      obtain ⟨chunks, hz⟩ := hz
      refine ⟨chunks, hz, ?_⟩
      intro st' hst'
      rw [if_neg (by omega)]
      obtain ⟨c, hc, hh⟩ := key st' hst'
      rw [hz, List.append_cancel_left_eq] at hc
      subst hc
      exact hh
    have htake : ∀ c : Bytes, (chunk ++ c).take i.size = chunk ∧ (chunk ++ c).drop i.size = c := by
      intro c
      rw [← e2]
      exact ⟨List.take_left, List.drop_left⟩
    by_cases hn : is = []
    · subst hn
      cases hbs
      refine ⟨chunk, e4, ?_⟩
      simp only [translated]
      have ht := (htake []).1
      rw [List.append_nil] at ht
      rw [ht]
      cases hfix : lzxFixups filesize i.e8 st.out.length (st.out ++ chunk) with
      | error e => rw [e6 e hfix]
      | ok out =>
        obtain ⟨st', f1, f2, f3⟩ := e7 out hfix
        rw [f1]
        simp only
        have hend : size < addr' + 16 := by
          by_cases hst : i.stored = true
          · rw [if_pos hst] at e1
            simp only [List.length_nil] at hsize
            omega
          · rw [if_neg hst] at e1
            simp only [List.length_nil] at hsize
            rcases framePad_end e1 with h | h
            · omega
            · omega
        rw [if_pos hend, f2]
    · obtain ⟨chunks, hz, hall⟩ := hne hn
      refine ⟨chunk ++ chunks, by rw [hz, e4, List.append_assoc], ?_⟩
      simp only [translated]
      rw [(htake chunks).1, (htake chunks).2]
      cases hfix : lzxFixups filesize i.e8 st.out.length (st.out ++ chunk) with
      | error e => rw [e6 e hfix]
      | ok out =>
        obtain ⟨st', f1, f2, f3⟩ := e7 out hfix
        rw [f1]
        simp only
        rw [hall st' f3, f2]

/-- The whole: the output is that of the translation of jumps, applied block by block. -/
theorem lzxDecompress_spec {level : Nat} {filesize : Option Nat} {infos : List Info} {raw file : Bytes}
    (h : File level filesize infos raw file) (hap : Apart 0 infos) {s : InputStream}
    (hs : stringInputStream file = .ok s) :
    lzxDecompress s (8 * file.length) level = translated filesize [] infos raw := by
  obtain ⟨hm, hfs, hne, slots, u, bs, pad, hslots, hraw, hpad, hb, hbits⟩ := h
  obtain ⟨hlev, h50⟩ := slots_level hslots
  rw [fileBits_eq] at hbits
  have hlen : 8 * file.length = (headBits filesize).length + bs.length + pad.length := by
    have := congrArg List.length hbits
    simp only [streamBits, length_bitsMSB, Stream.length_swapPairs, List.length_append] at this
    omega
  have hat : BitsAt .middle file 0 (headBits filesize ++ bs) := by
    refine ⟨pad, ?_⟩
    rw [hbits]
    simp
  obtain ⟨a1, a2⟩ := hat.append
  rw [Nat.zero_add] at a2
  have hrel : Rel level slots (State.init slots) ⟨[], [], (1, 1, 1), none, none, none⟩ :=
    { window := ⟨[], rfl, Or.inl rfl⟩
      out := rfl
      recent := rfl
      start := rfl
      rest := by
        show List.replicate (slots * 8) 0 = List.replicate (8 * slots) 0
        rw [Nat.mul_comm]
      lens := rfl
      nStart := List.length_replicate
      nRest := by
        show (List.replicate (8 * slots) 0).length = slots * 8
        rw [List.length_replicate, Nat.mul_comm]
      nLens := List.length_replicate }
  have hcount : ∀ {pos : Nat} {x z : State} {is : List Info} {bs : List Bool},
      BlocksBits level slots pos x is z bs → is.length ≤ bs.length := by
    intro pos x z is bs h
    induction h with
    | nil => simp
    | cons pos x y z i is b bs hb hbs ih =>
      have := block_length hb
      simp only [List.length_cons, List.length_append]
      omega
  have hc := hcount hb
  have main : lzxBlocks s (8 * file.length) level filesize (8 * file.length) (headBits filesize).length
      ⟨[], [], (1, 1, 1), none, none, none⟩ = translated filesize [] infos raw := by
    have hpos : 0 < (headBits filesize).length := by cases filesize <;> simp [headBits]
    obtain ⟨chunks, hz, hh⟩ := lzxBlocks_spec hs hm hlev h50 filesize hb (8 * file.length) (8 * file.length) pad.length
      ⟨[], [], (1, 1, 1), none, none, none⟩ hrel a2 hlen hpad (by omega) (by omega) hne (fun _ _ _ _ => rfl) hap
    rw [hh]
    have : chunks = raw := by rw [← hraw, hz]; rfl
    rw [this]
  unfold lzxDecompress
  cases filesize with
  | none =>
    have hr : readBits s 0 1 .middle = .ok 0 := by
      have := readBit_at hs (fun _ => hm) (addr := 0) (b := false) a1
      exact this
    simp only [hr, ne_eq, not_true_eq_false, if_false]
    exact main
  | some n =>
    have hsp : BitsAt .middle file 0 ([true] ++ toBitsMSB 32 n) := a1
    obtain ⟨c1, c2⟩ := hsp.append
    have hr : readBits s 0 1 .middle = .ok 1 := by
      have := readBit_at hs (fun _ => hm) (addr := 0) (b := true) c1
      exact this
    have hr2 : readBits s 1 32 .middle = .ok n := by
      have := readNum hs hm (by omega) (hfs n rfl) c2
      exact this
    simp only [hr, hr2, ne_eq, Nat.one_ne_zero, not_false_eq_true, if_true]
    have : (headBits (some n)).length = 33 := by simp [headBits, length_toBitsMSB]
    rw [this] at main
    exact main

end Hachoir.Archive.LZX

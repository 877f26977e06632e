import Mathlib.Data.List.Forall2
import Verif.Archive.Bzip2Lemmas

/-!
# C73: bzip2 archives are read as they were written
-/

set_option linter.unusedVariables false

namespace Hachoir.Props
open Hachoir Hachoir.Stream Hachoir.Archive Spec Spec.Bzip2

/-! ### What the descriptions of the codes tell -/

/-- The text that the descriptions of the codes of a block spell out: the run codes of a run
tell its length so far. -/
def told : Nat → List BzEvent → List Nat
  | _, [] => []
  | before, .run symbol total :: l => List.replicate (total - before) symbol ++ told total l
  | _, .literal symbol :: l => symbol :: told 0 l
  | _, .stop :: _ => []

/-! ### Helper lemmas -/

theorem walks_length : ∀ (steps : List (List Bool)) (n : Int), (walks n steps).length = steps.length := by
  intro steps
  induction steps with
  | nil => intro n; rfl
  | cons a l ih => intro n; rw [walks, List.length_cons, ih, List.length_cons]

/-- The table of every code is one of the tables. -/
theorem table_mem (b : Spec.Bzip2.Block) (hv : b.Valid) (k : Nat) (hk : k < 50 * b.selectors.length) :
    ∃ i t, b.selectors[k / 50]? = some i ∧ b.tables[i]? = some t ∧ t ∈ b.tables ∧ b.table k = t.lengths := by
  have h1 : k / 50 < b.selectors.length := by omega
  have e1 : b.selectors[k / 50]? = some (b.selectors[k / 50]) := List.getElem?_eq_getElem h1
  have h2 := hv.selector _ (List.getElem_mem h1)
  have e2 : b.tables[b.selectors[k / 50]]? = some (b.tables[b.selectors[k / 50]]) := List.getElem?_eq_getElem h2
  refine ⟨_, _, e1, e2, List.getElem_mem h2, ?_⟩
  unfold Block.table
  rw [e1, Option.bind_some, e2]
  rfl

theorem table_code (b : Spec.Bzip2.Block) (hv : b.Valid) (t : LengthTable) (ht : t ∈ b.tables) (c : Nat)
    (hc : c < (alphabet b.used).length + 2) :
    HasCode t.lengths c ∧ t.lengths.getD c 0 ≤ 257 ∧ 0 < t.lengths.getD c 0 := by
  have hlen : t.lengths.length = (alphabet b.used).length + 2 := by
    unfold LengthTable.lengths
    rw [List.length_map, walks_length, hv.sizes t ht]
  have hc' : c < t.lengths.length := by omega
  have hg : t.lengths.getD c 0 = t.lengths[c] := by simp [List.getD_eq_getElem?_getD, hc']
  have hm : t.lengths[c] ∈ t.lengths := List.getElem_mem hc'
  unfold LengthTable.lengths at hm
  rw [List.mem_map] at hm
  obtain ⟨l, hl, e⟩ := hm
  have := hv.positive t ht l hl
  have hg' : t.lengths[c] = l.toNat := e.symm
  unfold HasCode
  rw [hg, hg']
  refine ⟨⟨hc', ?_⟩, ?_, ?_⟩ <;> omega

section
variable {data : Bytes} {s : InputStream} (hs : stringInputStream data = .ok s)
  (b : Spec.Bzip2.Block) (hv : b.Valid) (trees : List Table)
  (htrees : ∀ (i : Nat) (t : LengthTable), b.tables[i]? = some t → ∃ tree, trees[i]? = some tree ∧ Codes t.lengths tree)
include hs hv htrees

theorem codeLoop_step (k addr : Nat) (hk : k < 50 * b.selectors.length) (tree : Table)
    (htree : k % 50 ≠ 0 → Codes (b.table k) tree) (c : Nat) (hc : c < (alphabet b.used).length + 2)
    (h : BitsAt .big data addr (codeWord (b.table k) c)) :
    ∃ tree', selectTree trees b.selectors k tree = .ok tree' ∧ Codes (b.table k) tree' ∧
      (∃ size v, huffmanCode s .big tree' addr = .ok (size, v, c) ∧ size = (codeWord (b.table k) c).length) ∧
      0 < (codeWord (b.table k) c).length := by
  obtain ⟨i, t, e1, e2, e3, e4⟩ := table_mem b hv k hk
  obtain ⟨g1, g2, g3⟩ := table_code b hv t e3 c hc
  have hsel : ∃ tree', selectTree trees b.selectors k tree = .ok tree' ∧ Codes (b.table k) tree' := by
    unfold selectTree
    by_cases h0 : k % 50 = 0
    · obtain ⟨tree', f1, f2⟩ := htrees i t e2
      rw [if_pos h0, e1]
      simp only [f1]
      exact ⟨tree', rfl, by rw [e4]; exact f2⟩
    · rw [if_neg h0]
      exact ⟨tree, rfl, htree h0⟩
  obtain ⟨tree', f1, f2⟩ := hsel
  have hlen : (codeWord (b.table k) c).length = t.lengths.getD c 0 := by
    rw [e4, codeWord, length_toBitsMSB]
  have f3 := f2
  rw [e4] at h f3
  exact ⟨tree', f1, f2, ⟨_, _, huffmanCode_word hs (by simp) (hv.kraft t e3) f3 g1 g2 h, hlen.symm⟩,
    by rw [hlen]; exact g3⟩

theorem codeLoop_at : ∀ (cs : List Nat) (fuel addr k : Nat) (tree : Table) (l : List Nat) (run power : Nat),
    l ≠ [] → l.length = (alphabet b.used).length → (∀ c ∈ cs, c ≤ 1 ∨ (2 ≤ c ∧ c ≤ l.length)) →
    k + cs.length < 50 * b.selectors.length → cs.length < fuel → (k % 50 ≠ 0 → Codes (b.table k) tree) →
    BitsAt .big data addr (b.words k (cs ++ [l.length + 1])) →
    ∃ events, readCodeLoop s trees b.selectors fuel addr k tree l run power =
        .ok (addr + (b.words k (cs ++ [l.length + 1])).length, events) ∧
      told run events = undo l run power cs ∧ events.length = cs.length + 1 ∧ events.getLast? = some .stop := by
  intro cs
  induction cs with
  | nil =>
    intro fuel addr k tree l run power hl hlen hcs hk hf htree h
    obtain ⟨fuel, rfl⟩ : ∃ n, fuel = n + 1 := ⟨fuel - 1, by simp at hf; omega⟩
    have hl0 : 0 < l.length := List.length_pos_iff.2 hl
    simp only [List.nil_append, Block.words, List.append_nil] at h ⊢
    obtain ⟨tree', e1, _, ⟨size, v, e2, rfl⟩, _⟩ := codeLoop_step hs b hv trees htrees k addr (by simpa using hk) tree htree
      (l.length + 1) (by omega) h
    refine ⟨[.stop], ?_, rfl, rfl, rfl⟩
    rw [readCodeLoop, e1]
    simp only
    rw [e2]
    simp only
    rw [if_neg (by omega), if_pos trivial]
  | cons c cs ih =>
    intro fuel addr k tree l run power hl hlen hcs hk hf htree h
    obtain ⟨fuel, rfl⟩ : ∃ n, fuel = n + 1 := ⟨fuel - 1, by simp at hf; omega⟩
    have hl0 : 0 < l.length := List.length_pos_iff.2 hl
    simp only [List.length_cons] at hk hf
    simp only [List.cons_append, Block.words] at h ⊢
    obtain ⟨h1, h2⟩ := h.append
    have hc := hcs c (by simp)
    obtain ⟨tree', e1, e3, ⟨size, v, e2, rfl⟩, _⟩ := codeLoop_step hs b hv trees htrees k addr (by omega) tree htree
      c (by omega) h1
    have htree' : (k + 1) % 50 ≠ 0 → Codes (b.table (k + 1)) tree' := by
      intro h0
      have : b.table (k + 1) = b.table k := by
        unfold Block.table
        rw [show (k + 1) / 50 = k / 50 by omega]
      rw [this]
      exact e3
    rw [readCodeLoop, e1]
    simp only
    rw [e2]
    simp only
    by_cases hc1 : c ≤ 1
    · rw [if_pos hc1, undo, if_pos hc1]
      obtain ⟨front, others, rfl⟩ : ∃ a l', l = a :: l' := by
        cases l with
        | nil => exact absurd rfl hl
        | cons a l' => exact ⟨a, l', rfl⟩
      simp only
      obtain ⟨p, hp⟩ : ∃ p, (if run = 0 then 1 else power) = p := ⟨_, rfl⟩
      rw [hp]
      obtain ⟨events, f1, f2, f3, f4⟩ := ih fuel _ (k + 1) tree' (front :: others) (run + (c + 1) * p) (p <<< 1)
        hl hlen (fun x hx => hcs x (by simp [hx])) (by omega) (by omega) htree' h2
      rw [f1]
      refine ⟨.run front (run + (c + 1) * p) :: events, ?_, ?_, by simp [f3], ?_⟩
      · simp only [List.length_append, Nat.add_assoc]
      · rw [told, f2, Nat.add_sub_cancel_left]
        rfl
      · rw [List.getLast?_cons, f4]; rfl
    · rw [if_neg hc1, undo, if_neg hc1, if_neg (by omega)]
      have hcl : c - 1 < l.length := by omega
      have hm := length_moveToFront l (c - 1) hcl
      obtain ⟨m, hmeq⟩ : ∃ m, moveToFront l (c - 1) = m := ⟨_, rfl⟩
      rw [hmeq] at hm ⊢
      obtain ⟨front, others, rfl⟩ : ∃ a l', m = a :: l' := by
        cases m with
        | nil => simp at hm; omega
        | cons a l' => exact ⟨a, l', rfl⟩
      simp only
      rw [← hm] at h2
      obtain ⟨events, f1, f2, f3, f4⟩ := ih fuel _ (k + 1) tree' (front :: others) 0 power
        (by simp) (by omega) (fun x hx => by rw [hm]; exact hcs x (by simp [hx])) (by omega) (by omega) htree' h2
      rw [f1]
      refine ⟨.literal front :: events, ?_, ?_, by simp [f3], ?_⟩
      · simp only [List.length_append, Nat.add_assoc, hm]
      · rw [told, f2]
        rfl
      · rw [List.getLast?_cons, f4]; rfl

omit hs htrees in
theorem words_length : ∀ (cs : List Nat) (k : Nat), (∀ c ∈ cs, c < (alphabet b.used).length + 2) →
    k + cs.length ≤ 50 * b.selectors.length → cs.length ≤ (b.words k cs).length := by
  intro cs
  induction cs with
  | nil => intro k _ _; simp
  | cons c cs ih =>
    intro k hc hk
    simp only [List.length_cons] at hk
    obtain ⟨i, t, e1, e2, e3, e4⟩ := table_mem b hv k (by omega)
    obtain ⟨_, _, g3⟩ := table_code b hv t e3 c (hc c (by simp))
    have := ih (k + 1) (fun x hx => hc x (by simp [hx])) (by omega)
    have hl : (codeWord (b.table k) c).length = t.lengths.getD c 0 := by rw [e4, codeWord, length_toBitsMSB]
    rw [Block.words, List.length_append, List.length_cons]
    omega

end

/-! ### C73 -/

/-- The values of a block as it was written. -/
def BitsRead (b : Spec.Bzip2.Block) (r : BzBlock) : Prop :=
  r.crc = b.crc ∧ r.randomized = b.randomized.toNat ∧ r.pointer = b.pointer ∧ r.symbols = alphabet b.used ∧
  r.selectors = b.selectors ∧ told 0 r.events = b.text ∧ r.events.length = (codes b.used b.text).length ∧
  r.events.getLast? = some .stop

/-- C73.  A block that was written by any bzip2 compressor (any tables, any steps between the
lengths, any selectors) is read with its header, its alphabet and its selectors, and the
descriptions of its codes tell exactly the text of the block; the block ends exactly behind the
bits that were written. -/
theorem C73_block {data : Bytes} {s : InputStream} (hs : stringInputStream data = .ok s) (b : Spec.Bzip2.Block)
    (hv : b.Valid) (addr fuel : Nat) (hfuel : 8 * data.length < fuel) (h : BitsAt .big data addr b.bits) :
    ∃ r, bzip2Block s fuel addr = .ok (addr + b.bits.length, r) ∧ BitsRead b r := by
  have hlen : b.bits.length = (b.words 0 (codes b.used b.text)).length + ((b.tables.flatMap LengthTable.bits).length +
      (((mtf (List.range b.tables.length) b.selectors).flatMap unary).length + (18 + ((usedBits b.used).length + 105)))) := by
    unfold Block.bits
    simp only [List.length_append, length_toBitsMSB, List.length_singleton]
    omega
  rw [hlen]
  unfold Block.bits at h
  obtain ⟨h, hwords⟩ := h.append
  obtain ⟨h, htab⟩ := h.append
  obtain ⟨h, hsel⟩ := h.append
  obtain ⟨h, hnsel⟩ := h.append
  obtain ⟨h, hngr⟩ := h.append
  obtain ⟨h, hused⟩ := h.append
  obtain ⟨h, hptr⟩ := h.append
  obtain ⟨h, hrand⟩ := h.append
  obtain ⟨hhead, hcrc⟩ := h.append
  simp only [List.length_append, length_toBitsMSB, List.length_singleton] at hwords htab hsel hnsel hngr hused hptr hrand hcrc
  obtain ⟨map, u1, u2⟩ := readUsed_all hs b.used _ hused
  have hsize : ∀ t ∈ b.tables, t.steps.length = (alphabet b.used).length + 1 + 1 := hv.sizes
  have hsel' := readSelectors_at hs hfuel b.selectors (List.range b.tables.length) _
    (fun x hx => List.mem_range.2 (hv.selector x hx)) hsel
  obtain ⟨trees, t1, t2, t3⟩ := readTables_at hs hfuel _ b.tables _ hsize hv.starts hv.positive htab
  have hcodes : ∀ c ∈ runs 0 (mtf (alphabet b.used) b.text), c ≤ 1 ∨ (2 ≤ c ∧ c ≤ (alphabet b.used).length) :=
    runs_lt b.text (alphabet b.used) 0 (fun x hx => by
      have := hv.text x hx
      exact List.mem_filter.2 ⟨List.mem_range.2 this.1, this.2⟩)
  have henough := hv.enough
  have hcl : (codes b.used b.text).length = (runs 0 (mtf (alphabet b.used) b.text)).length + 1 := by
    simp [codes]
  have hwl := words_length b hv (codes b.used b.text) 0 (by
    intro c hc
    unfold codes at hc
    rcases List.mem_append.1 hc with hc | hc
    · have := hcodes c hc; omega
    · simp at hc; omega) (by omega)
  have hwb := bitsAt_length hwords
  obtain ⟨events, c1, c2, c3, c4⟩ := codeLoop_at hs b hv trees t3 (runs 0 (mtf (alphabet b.used) b.text)) fuel _ 0 []
    (alphabet b.used) 0 1 hv.nonempty rfl hcodes (by omega) (by omega) (by omega) hwords
  have hundo := undo_runs b.text (alphabet b.used) 0 (fun x hx => by
      have := hv.text x hx
      exact List.mem_filter.2 ⟨List.mem_range.2 this.1, this.2⟩)
  refine ⟨⟨b.crc, b.randomized.toNat, b.pointer, alphabet b.used, b.selectors, trees, events⟩, ?_,
    rfl, rfl, rfl, rfl, rfl, by rw [c2, hundo]; simp, by rw [c3, hcl], c4⟩
  unfold bzip2Block
  rw [readN hs (by omega) (by omega) hhead]
  simp only [ne_eq, not_true, if_false]
  rw [readN hs (by omega) hv.crc hcrc]
  simp only
  rw [readOne hs hrand]
  simp only
  rw [readN hs (by omega) hv.pointer hptr]
  simp only
  unfold bzip2Body
  rw [u1]
  simp only
  rw [u2]
  simp only
  have e3 := readN hs (show 0 < 3 by omega) (show b.tables.length < 2 ^ 3 from hv.tables) hngr
  have e15 := readN hs (show 0 < 15 by omega) hv.selectors hnsel
  obtain ⟨U, hU⟩ : ∃ U, (usedBits b.used).length = U := ⟨_, rfl⟩
  obtain ⟨S, hS⟩ : ∃ S, ((mtf (List.range b.tables.length) b.selectors).flatMap unary).length = S := ⟨_, rfl⟩
  obtain ⟨T, hT⟩ : ∃ T, (b.tables.flatMap LengthTable.bits).length = T := ⟨_, rfl⟩
  rw [hU, hS] at t1
  rw [hU, hS, hT] at c1
  rw [hT] at t1
  rw [hU] at e3 e15 hsel'
  rw [hS] at hsel'
  rw [hU, hS, hT]
  rw [show addr + (48 + 32 + 1 + 24) + U = addr + (48 + 32 + 1 + 24 + U) by omega, e3]
  simp only
  rw [show addr + (48 + 32 + 1 + 24 + U) + 3 = addr + (48 + 32 + 1 + 24 + U + 3) by omega, e15]
  simp only
  rw [show addr + (48 + 32 + 1 + 24 + U) + 18 = addr + (48 + 32 + 1 + 24 + U + 3 + 15) by omega, hsel']
  simp only
  rw [show addr + (48 + 32 + 1 + 24 + U + 3 + 15) + S = addr + (48 + 32 + 1 + 24 + U + 3 + 15 + S) by omega, t1]
  simp only
  rw [show addr + (48 + 32 + 1 + 24 + U + 3 + 15 + S) + T = addr + (48 + 32 + 1 + 24 + U + 3 + 15 + S + T) by omega, c1]
  simp only
  have : addr + (48 + 32 + 1 + 24 + U + 3 + 15 + S + T) + (b.words 0 (codes b.used b.text)).length =
      addr + ((b.words 0 (codes b.used b.text)).length + (T + (S + (18 + (U + 105))))) := by omega
  rw [← this]
  rfl

theorem block_head (b : Spec.Bzip2.Block) : ∃ rest, b.bits = toBitsMSB 48 0x314159265359 ++ rest := by
  unfold Block.bits
  simp only [List.append_assoc]
  exact ⟨_, rfl⟩

theorem stream_at {data : Bytes} {s : InputStream} (hs : stringInputStream data = .ok s) (crc fuel2 start : Nat)
    (hcrc : crc < 2 ^ 32) (hfuel2 : 8 * data.length < fuel2) :
    ∀ (blocks : List Spec.Bzip2.Block) (fuel addr : Nat), (∀ b ∈ blocks, b.Valid) → blocks.length < fuel →
      start ≤ addr → BitsAt .big data addr (fileBits blocks crc) →
      ∃ l pad, bzip2Stream s start fuel2 fuel addr = .ok (addr + (fileBits blocks crc).length + pad, l, crc) ∧
        List.Forall₂ BitsRead blocks l ∧ pad < 8 ∧ (addr + (fileBits blocks crc).length + pad - start) % 8 = 0 := by
  intro blocks
  induction blocks with
  | nil =>
    intro fuel addr _ hf hsa h
    obtain ⟨fuel, rfl⟩ : ∃ n, fuel = n + 1 := ⟨fuel - 1, by simp at hf; omega⟩
    simp only [fileBits, List.flatMap_nil, List.nil_append] at h ⊢
    obtain ⟨h1, h2⟩ := h.append
    rw [length_toBitsMSB] at h2
    rw [bzip2Stream, readN hs (by omega) (by omega) h1]
    simp only
    rw [if_neg (by omega), if_pos trivial, readN hs (by omega) hcrc h2]
    simp only [List.length_append, length_toBitsMSB]
    obtain ⟨n, hn⟩ : ∃ n, addr + 80 - start = n := ⟨_, rfl⟩
    have hpad : ∃ pad : Nat, Tools.paddingSize ((addr : Int) + 80 - (start : Int)) 8 = .ok (pad : Int) ∧ pad < 8 ∧
        (n + pad) % 8 = 0 := by
      rw [show (addr : Int) + 80 - (start : Int) = (n : Int) by omega]
      unfold Tools.paddingSize
      rw [if_neg (by omega), Int.fmod_eq_emod_of_nonneg _ (by omega)]
      by_cases h0 : n % 8 = 0
      · rw [if_neg (by omega)]
        exact ⟨0, rfl, by omega, by omega⟩
      · rw [if_pos (by omega)]
        exact ⟨8 - n % 8, by congr 1; omega, by omega, by omega⟩
    obtain ⟨pad, p1, p2, p3⟩ := hpad
    rw [p1]
    refine ⟨[], pad, ?_, .nil, p2, by omega⟩
    simp
  | cons b bs ih =>
    intro fuel addr hv hf hsa h
    obtain ⟨fuel, rfl⟩ : ∃ n, fuel = n + 1 := ⟨fuel - 1, by simp at hf; omega⟩
    have hcons : fileBits (b :: bs) crc = b.bits ++ fileBits bs crc := by
      simp only [fileBits, List.flatMap_cons, List.append_assoc]
    rw [hcons] at h ⊢
    obtain ⟨h1, h2⟩ := h.append
    obtain ⟨rest, hrest⟩ := block_head b
    have h3 := h1
    rw [hrest] at h3
    rw [bzip2Stream, readN hs (by omega) (by omega) h3.append.1]
    simp only
    rw [if_pos trivial]
    obtain ⟨r, e1, e2⟩ := C73_block hs b (hv b (by simp)) addr fuel2 hfuel2 h1
    rw [e1]
    simp only
    obtain ⟨l, pad, f1, f2, f3, f4⟩ := ih fuel (addr + b.bits.length) (fun x hx => hv x (by simp [hx]))
      (by simp only [List.length_cons] at hf; omega) (by omega) h2
    rw [f1]
    refine ⟨r :: l, pad, ?_, .cons e2 f2, f3, ?_⟩
    · rw [List.length_append]; simp only [Nat.add_assoc]
    · rw [List.length_append, ← Nat.add_assoc]; exact f4

theorem codeLoop_shape (s : InputStream) (trees : List Table) (selectors : List Nat) :
    ∀ (fuel addr counter : Nat) (tree : Table) (symbols : List Nat) (run power addr' : Nat) (events : List BzEvent),
      readCodeLoop s trees selectors fuel addr counter tree symbols run power = .ok (addr', events) →
      ∃ init, events = init ++ [.stop] ∧
        ∀ e ∈ init, ∃ x ∈ symbols, e = .literal x ∨ ∃ total, e = .run x total := by
  intro fuel
  induction fuel with
  | zero => intro addr counter tree symbols run power addr' events h; cases h
  | succ fuel ih =>
    intro addr counter tree symbols run power addr' events h
    rw [readCodeLoop] at h
    split at h
    · cases h
    split at h
    · cases h
    split at h
    · simp only at h
      split at h
      · cases h
      · rename_i front others
        split at h
        · cases h
        · rename_i l' hl
          cases h
          obtain ⟨init, rfl, h2⟩ := ih _ _ _ _ _ _ _ _ hl
          refine ⟨_ :: init, rfl, ?_⟩
          intro e he
          rcases List.mem_cons.1 he with rfl | he
          · exact ⟨front, by simp, .inr ⟨_, rfl⟩⟩
          · exact h2 e he
    split at h
    · cases h
      exact ⟨[], rfl, by simp⟩
    · split at h
      · cases h
      · rename_i front others hm
        have hsub : ∀ x ∈ front :: others, x ∈ symbols := by
          rw [← hm]
          intro x hx
          unfold moveToFront at hx
          rcases List.mem_append.1 hx with hx | hx
          · rcases List.mem_append.1 hx with hx | hx
            · exact List.mem_of_mem_drop (List.mem_of_mem_take hx)
            · exact List.mem_of_mem_take hx
          · exact List.mem_of_mem_drop hx
        split at h
        · cases h
        · rename_i l' hl
          cases h
          obtain ⟨init, rfl, h2⟩ := ih _ _ _ _ _ _ _ _ hl
          refine ⟨_ :: init, rfl, ?_⟩
          intro e he
          rcases List.mem_cons.1 he with rfl | he
          · exact ⟨front, hsub _ (by simp), .inl rfl⟩
          · obtain ⟨x, hx, h3⟩ := h2 e he
            exact ⟨x, hsub x hx, h3⟩

theorem selectors_shape (s : InputStream) (fuel : Nat) : ∀ (n : Nat) (groups : List Nat) (addr addr' : Nat) (l : List Nat),
    readSelectors s fuel n groups addr = .ok (addr', l) → l.length = n ∧ ∀ x ∈ l, x ∈ groups := by
  intro n
  induction n with
  | zero => intro groups addr addr' l h; cases h; exact ⟨rfl, by simp⟩
  | succ n ih =>
    intro groups addr addr' l h
    rw [readSelectors] at h
    split at h
    · cases h
    split at h
    · cases h
    · rename_i front others hm
      have hsub : ∀ x ∈ front :: others, x ∈ groups := by
        rw [← hm]
        intro x hx
        unfold moveToFront at hx
        rcases List.mem_append.1 hx with hx | hx
        · rcases List.mem_append.1 hx with hx | hx
          · exact List.mem_of_mem_drop (List.mem_of_mem_take hx)
          · exact List.mem_of_mem_take hx
        · exact List.mem_of_mem_drop hx
      split at h
      · cases h
      · rename_i l' hl
        cases h
        obtain ⟨h1, h2⟩ := ih _ _ _ _ hl
        refine ⟨by rw [List.length_cons, h1], ?_⟩
        intro x hx
        rcases List.mem_cons.1 hx with rfl | hx
        · exact hsub _ (by simp)
        · exact hsub x (h2 x hx)

theorem readTables_length (s : InputStream) (fuel symbols : Nat) : ∀ (n addr addr' : Nat) (l : List Table),
    readTables s fuel symbols n addr = .ok (addr', l) → l.length = n := by
  intro n
  induction n with
  | zero => intro addr addr' l h; cases h; rfl
  | succ n ih =>
    intro addr addr' l h
    rw [readTables] at h
    split at h
    · cases h
    split at h
    · cases h
    · rename_i hl
      cases h
      rw [List.length_cons, ih _ _ _ hl]

/-- C73, for any stream whatever: the descriptions of a block that was read end with the end of
the block, which is told once; they name only symbols of the alphabet of the block; and every
selector names a table. -/
theorem C73_any (s : InputStream) (fuel addr addr' : Nat) (r : BzBlock)
    (h : bzip2Block s fuel addr = .ok (addr', r)) :
    (∃ init, r.events = init ++ [.stop] ∧
      ∀ e ∈ init, ∃ x ∈ r.symbols, e = .literal x ∨ ∃ total, e = .run x total) ∧
    ∀ x ∈ r.selectors, x < r.trees.length := by
  unfold bzip2Block at h
  split at h
  · cases h
  split at h
  · cases h
  split at h
  · cases h
  split at h
  · cases h
  split at h
  · cases h
  unfold bzip2Body at h
  split at h
  · cases h
  split at h
  · cases h
  split at h
  · cases h
  split at h
  · cases h
  split at h
  · cases h
  rename_i hsel
  split at h
  · cases h
  rename_i htab
  split at h
  · cases h
  rename_i hcode
  cases h
  refine ⟨codeLoop_shape s _ _ _ _ _ _ _ _ _ _ _ hcode, ?_⟩
  intro x hx
  have h1 := (selectors_shape s _ _ _ _ _ _ hsel).2 x hx
  have h2 := readTables_length s _ _ _ _ _ _ htab
  rw [h2]
  exact List.mem_range.1 h1

/-- C73, what is not noticed: a selector that names no table (the format has as many tables as
`groups` is long) is not refused, the table used before is used again. -/
theorem C73_badSelector {data : Bytes} {s : InputStream} (hs : stringInputStream data = .ok s) (addr fuel k front : Nat)
    (others : List Nat) (hk : (front :: others).length ≤ k) (hfuel : k < fuel) (h : BitsAt .big data addr (unary k)) :
    readSelectors s fuel 1 (front :: others) addr = .ok (addr + (k + 1), [front]) := by
  have hm : moveToFront (front :: others) k = front :: others := by
    unfold moveToFront
    rw [List.drop_eq_nil_of_le hk, List.drop_eq_nil_of_le (by omega), List.take_of_length_le hk]
    simp
  rw [readSelectors, zeroTerminated_unary hs k fuel addr 0 hfuel h]
  simp only
  rw [Nat.zero_add, hm]
  simp only
  rfl

/-- Non-vacuity: five steps in a list of two tables. -/
example : ∃ s, stringInputStream [0b11111000] = .ok s ∧ BitsAt .big [0b11111000] 0 (unary 5) ∧
    readSelectors s 9 1 [0, 1] 0 = .ok (6, [0]) :=
  ⟨_, rfl, by unfold BitsAt; decide +kernel, by decide +kernel⟩

/-- C74.  A file of any number of blocks is read block by block, with the checksum of the file,
and ends behind the padding to the next byte. -/
theorem C74_stream {data : Bytes} {s : InputStream} (hs : stringInputStream data = .ok s)
    (blocks : List Spec.Bzip2.Block) (crc : Nat) (hv : ∀ b ∈ blocks, b.Valid) (hcrc : crc < 2 ^ 32)
    (h : BitsAt .big data 32 (fileBits blocks crc)) :
    ∃ l pad, bzip2File s data.length = .ok (32 + (fileBits blocks crc).length + pad, l, crc) ∧
      List.Forall₂ BitsRead blocks l ∧ pad < 8 ∧ ((fileBits blocks crc).length + pad) % 8 = 0 := by
  have hlen := bitsAt_length h
  have hb : ∀ (bs : List Spec.Bzip2.Block), bs.length ≤ (bs.flatMap Block.bits).length := by
    intro bs
    induction bs with
    | nil => simp
    | cons b bs ih =>
      obtain ⟨rest, hrest⟩ := block_head b
      rw [List.flatMap_cons, List.length_append, List.length_cons, hrest, List.length_append, length_toBitsMSB]
      omega
  have := hb blocks
  have h2 : (fileBits blocks crc).length = (blocks.flatMap Block.bits).length + 80 := by
    simp only [fileBits, List.length_append, length_toBitsMSB]
  obtain ⟨l, pad, e1, e2, e3, e4⟩ := stream_at hs crc (8 * data.length + 1) 32 hcrc (by omega) blocks
    (8 * data.length + 1) 32 hv (by omega) (by omega) h
  exact ⟨l, pad, e1, e2, e3, by omega⟩

/-! ### A file -/

/-- What the command `bzip2` makes of "banana bandanannn". -/
def bananas : Bytes := [66, 90, 104, 57, 49, 65, 89, 38, 83, 89, 163, 25, 218, 7, 0, 0, 3, 145, 0, 64, 0, 52, 1,
  32, 0, 48, 205, 0, 211, 245, 70, 139, 58, 182, 85, 192, 241, 119, 36, 83, 133, 9, 10, 49, 157, 160, 112]

/-- The parts of that file. -/
def bananaBlock : Spec.Bzip2.Block :=
  { crc := 2736380423, randomized := false, pointer := 7, used := fun x => [32, 97, 98, 100, 110].contains x,
    selectors := [1],
    tables := [⟨3, [[], [], [true], [false], [], [], []]⟩,
      ⟨3, [[], [false], [true, true, true], [false, false, false], [], [true], [false]]⟩],
    text := [97, 110, 110, 98, 100, 98, 110, 110, 32, 110, 97, 97, 97, 110, 97, 110, 97] }

theorem bananaBlock_valid : bananaBlock.Valid where
  crc := by decide
  pointer := by decide
  tables := by decide
  selectors := by decide
  selector := by decide
  enough := by decide +kernel
  sizes := by decide +kernel
  starts := by decide
  positive := by decide +kernel
  kraft := fun t ht => ⟨4, by revert t; decide +kernel⟩
  text := by decide +kernel
  nonempty := by decide +kernel

/-- Non-vacuity: the file is a file of one block. -/
example : ∃ s, stringInputStream bananas = .ok s ∧ BitsAt .big bananas 32 (fileBits [bananaBlock] 2736380423) :=
  ⟨_, rfl, by unfold BitsAt; decide +kernel⟩

/-- The whole file is read: one block, which tells the text, and nothing behind the padding. -/
example : ∃ s, stringInputStream bananas = .ok s ∧
    (bzip2File s 47).map (fun r => (r.1, r.2.1.map fun b => (told 0 b.events, b.events.take 3), r.2.2)) =
      .ok (8 * 47, [(bananaBlock.text, [.literal 97, .literal 110, .run 110 1])], 2736380423) :=
  ⟨_, rfl, by decide +kernel⟩

end Hachoir.Props

import Verif.Stream.Ring

/-! Invariant of the model of `InputPipe`. -/

set_option linter.unusedVariables false
set_option linter.unusedSimpArgs false

namespace Hachoir.Stream
open Hachoir

def nxF (bufs : List (Option Buf)) (i : Nat) : Nat :=
  match bufs[i]? with
  | some (some b) => b.next
  | _ => 0

def pvF (bufs : List (Option Buf)) (i : Nat) : Nat :=
  match bufs[i]? with
  | some (some b) => b.prev
  | _ => 0

theorem upd_ne (f : Nat → Nat) (i v j : Nat) (h : j ≠ i) : upd f i v j = f j := by simp [upd, h]

/-- The contents of the slots, without the links. -/
def slot (bufs : List (Option Buf)) (i : Nat) : Option (Option Bytes) :=
  (bufs[i]?).map (fun o => o.map Buf.data)

theorem bufAt_live (bufs : List (Option Buf)) (i : Nat) (d : Bytes) (h : slot bufs i = some (some d)) :
    ∃ b, bufs[i]? = some (some b) ∧ bufAt bufs i = .ok b ∧ b.next = nxF bufs i ∧ b.prev = pvF bufs i ∧
      b.data = d := by
  unfold slot at h
  cases hb : bufs[i]? with
  | none => simp [hb] at h
  | some o =>
    cases o with
    | none => simp [hb] at h
    | some b =>
      simp [hb] at h
      exact ⟨b, rfl, by simp [bufAt, hb], by simp [nxF, hb], by simp [pvF, hb], h⟩

theorem setNext_live (bufs : List (Option Buf)) (i v : Nat) (d : Bytes) (h : slot bufs i = some (some d)) :
    ∃ bufs', setNext bufs i v = .ok bufs' ∧ bufs'.length = bufs.length ∧
      nxF bufs' = upd (nxF bufs) i v ∧ pvF bufs' = pvF bufs ∧ slot bufs' = slot bufs := by
  obtain ⟨b, h0, h1, h2, h3, h4⟩ := bufAt_live bufs i d h
  have hlt : i < bufs.length := by
    rcases Nat.lt_or_ge i bufs.length with h | h
    · exact h
    · simp [List.getElem?_eq_none h] at h0
  refine ⟨bufs.set i (some { b with next := v }), by simp [setNext, h1], by simp, ?_, ?_, ?_⟩
  · funext j
    by_cases hj : i = j
    · subst hj; simp [nxF, upd, hlt]
    · have : j ≠ i := Ne.symm hj
      simp [nxF, upd, List.getElem?_set, hj, this]
  · funext j
    by_cases hj : i = j
    · subst hj; simp [pvF, hlt, h0]
      simp [List.getElem?_eq_getElem hlt] at h0
      simp [h0]
    · simp [pvF, List.getElem?_set, hj]
  · funext j
    by_cases hj : i = j
    · subst hj; simp [slot, hlt]
      simp [List.getElem?_eq_getElem hlt] at h0
      simp [h0]
    · simp [slot, List.getElem?_set, hj]

theorem setPrev_live (bufs : List (Option Buf)) (i v : Nat) (d : Bytes) (h : slot bufs i = some (some d)) :
    ∃ bufs', setPrev bufs i v = .ok bufs' ∧ bufs'.length = bufs.length ∧
      nxF bufs' = nxF bufs ∧ pvF bufs' = upd (pvF bufs) i v ∧ slot bufs' = slot bufs := by
  obtain ⟨b, h0, h1, h2, h3, h4⟩ := bufAt_live bufs i d h
  have hlt : i < bufs.length := by
    rcases Nat.lt_or_ge i bufs.length with h | h
    · exact h
    · simp [List.getElem?_eq_none h] at h0
  refine ⟨bufs.set i (some { b with prev := v }), by simp [setPrev, h1], by simp, ?_, ?_, ?_⟩
  · funext j
    by_cases hj : i = j
    · subst hj; simp [nxF, hlt, h0]
      simp [List.getElem?_eq_getElem hlt] at h0
      simp [h0]
    · simp [nxF, List.getElem?_set, hj]
  · funext j
    by_cases hj : i = j
    · subst hj; simp [pvF, upd, hlt]
    · have : j ≠ i := Ne.symm hj
      simp [pvF, upd, List.getElem?_set, hj, this]
  · funext j
    by_cases hj : i = j
    · subst hj; simp [slot, hlt]
      simp [List.getElem?_eq_getElem hlt] at h0
      simp [h0]
    · simp [slot, List.getElem?_set, hj]

/-- Block `i` of the source. -/
def blockOf (k : Nat) (src : Bytes) (i : Nat) : Bytes := (src.drop (i * 2 ^ k)).take (2 ^ k)

/-- The invariant: the buffers hold the blocks of the source read so far, except
the discarded ones at the start, and the links form a ring in access order
`ord` (least recent first). -/
structure PInv (k nbMin : Nat) (src : Bytes) (p : Pipe) (ord : List Nat) : Prop where
  nodup : ord.Nodup
  mem : ∀ i, i ∈ ord ↔ p.first ≤ i ∧ i < p.buffers.length
  dead : ∀ i, i < p.first → slot p.buffers i = some none
  live : ∀ i, p.first ≤ i → i < p.buffers.length → slot p.buffers i = some (some (blockOf k src i))
  last : p.last = ord.getLast?
  ring : Ring (nxF p.buffers) (pvF p.buffers) ord
  input : p.input = src.drop (p.buffers.length * 2 ^ k)
  pos : ∀ i, i < p.buffers.length → i * 2 ^ k < src.length
  first : p.first = 0 ∨ p.first + nbMin ≤ p.buffers.length
  unpub : p.published = [] → p.buffers.length * 2 ^ k ≤ src.length ∧ p.size = none
  pub : p.published ≠ [] → p.published.head? = some src.length ∧ p.input = []

theorem PInv_init (k nbMin : Nat) (src : Bytes) : PInv k nbMin src (Pipe.init src) [] := by
  constructor <;> simp [Pipe.init, Ring]

theorem PInv.first_le {k nbMin : Nat} {src : Bytes} {p : Pipe} {ord : List Nat} (h : PInv k nbMin src p ord) :
    p.first ≤ p.buffers.length := by
  rcases h.first with h | h <;> omega

theorem PInv.live_mem {k nbMin : Nat} {src : Bytes} {p : Pipe} {ord : List Nat} (h : PInv k nbMin src p ord)
    (i : Nat) (hi : i ∈ ord) : slot p.buffers i = some (some (blockOf k src i)) :=
  h.live i ((h.mem i).mp hi).1 ((h.mem i).mp hi).2

/-- `_get` of a live block moves it to the end of the access order. -/
theorem pipeGet_live (k nbMin : Nat) (src : Bytes) (p : Pipe) (ord : List Nat) (h : PInv k nbMin src p ord)
    (i : Nat) (hi : i ∈ ord) :
    ∃ p' ord', pipeGet p i = .ok (p', blockOf k src i) ∧ PInv k nbMin src p' ord' ∧
      p'.first = p.first ∧ p'.buffers.length = p.buffers.length ∧ p'.address = p.address ∧
      p'.size = p.size ∧ p'.published = p.published := by
  obtain ⟨b, g0, g1, g2, g3, g4⟩ := bufAt_live _ _ _ (h.live_mem i hi)
  unfold pipeGet
  rw [g0]
  simp only
  by_cases hl : p.last = some i
  · simp only [hl, if_true, g4]
    exact ⟨p, ord, rfl, h, rfl, rfl, rfl, rfl, rfl⟩
  · simp only [hl, if_false]
    obtain ⟨A, C, rfl⟩ := List.append_of_mem hi
    have hC : C ≠ [] := by
      rintro rfl
      apply hl; rw [h.last]; simp
    obtain ⟨last, hlast⟩ : ∃ last, C.getLast? = some last := ⟨C.getLast hC, List.getLast?_eq_some_getLast hC⟩
    have hpl : p.last = some last := by
      rw [h.last, List.getLast?_append, List.getLast?_cons, hlast]; simp
    have hlC : last ∈ C := List.mem_of_getLast? hlast
    have hlord : last ∈ A ++ i :: C := by simp [hlC]
    obtain ⟨hring, hm1, hm2, hm3, hn1, hn2, hn3⟩ := Ring_move _ _ A C i last h.nodup hlast h.ring
    have hil : last ≠ i := by
      intro e
      have := (List.nodup_cons.mp (List.nodup_append.mp h.nodup).2.1).1
      exact this (e ▸ hlC)
    rw [hpl]
    simp only
    rw [g2, g3, g4]
    -- the six assignments
    obtain ⟨b1, a1, l1, n1, q1, s1⟩ := setPrev_live p.buffers (nxF p.buffers i) (pvF p.buffers i) _ (h.live_mem _ hm1)
    have hs1 := h.live_mem _ hm2
    rw [← s1] at hs1
    obtain ⟨b2, a2, l2, n2, q2, s2⟩ := setNext_live b1 (pvF p.buffers i) (nxF p.buffers i) _ hs1
    have hs2 := h.live_mem _ hlord
    rw [← s1, ← s2] at hs2
    obtain ⟨bl, _, c1, c2, _, _⟩ := bufAt_live b2 last _ hs2
    have hnx2 : nxF b2 = upd (nxF p.buffers) (pvF p.buffers i) (nxF p.buffers i) := by rw [n2, n1]
    have hs3 := h.live_mem _ hi
    rw [← s1, ← s2] at hs3
    obtain ⟨b3, a3, l3, n3, q3, s3⟩ := setNext_live b2 i (nxF b2 last) _ hs3
    rw [← s3] at hs3
    obtain ⟨b4, a4, l4, n4, q4, s4⟩ := setPrev_live b3 i last _ hs3
    have hs4 := h.live_mem _ hm3
    rw [← hnx2, ← s1, ← s2, ← s3, ← s4] at hs4
    obtain ⟨b5, a5, l5, n5, q5, s5⟩ := setPrev_live b4 (nxF b2 last) i _ hs4
    rw [← s3, ← s4, ← s5] at hs2
    obtain ⟨b6, a6, l6, n6, q6, s6⟩ := setNext_live b5 last i _ hs2
    simp only [a1, a2, c1, c2, a3, a4, a5, a6, bind, Except.bind]
    have hslot : slot b6 = slot p.buffers := by rw [s6, s5, s4, s3, s2, s1]
    have hlen : b6.length = p.buffers.length := by omega
    refine ⟨_, A ++ C ++ [i], rfl, ?_, rfl, hlen, rfl, rfl, rfl⟩
    have hperm : (A ++ i :: C).Perm (A ++ C ++ [i]) := by
      have h1 : (A ++ i :: C).Perm (i :: (A ++ C)) := List.perm_middle
      have h2 : (A ++ C ++ [i]).Perm (i :: (A ++ C)) := by
        have := List.perm_append_singleton i (A ++ C)
        exact this
      exact h1.trans h2.symm
    constructor
    · exact hperm.nodup_iff.mp h.nodup
    · intro j
      rw [← hperm.mem_iff]
      simp only [hlen]; exact h.mem j
    · intro j hj; simp only [hslot]; exact h.dead j hj
    · intro j hj1 hj2; simp only [hslot]; simp only [hlen] at hj2; exact h.live j hj1 hj2
    · simp
    · simp only
      have e1 : nxF b6 = upd (upd (upd (nxF p.buffers) (pvF p.buffers i) (nxF p.buffers i)) i
          (upd (nxF p.buffers) (pvF p.buffers i) (nxF p.buffers i) last)) last i := by
        rw [n6, n5, n4, n3, hnx2]
      have e2 : pvF b6 = upd (upd (upd (pvF p.buffers) (nxF p.buffers i) (pvF p.buffers i)) i last)
          (upd (nxF p.buffers) (pvF p.buffers i) (nxF p.buffers i) last) i := by
        rw [q6, q5, q4, q3, q2, q1, hnx2]
      rw [e1, e2]; exact hring
    · simp only [hlen]; exact h.input
    · intro j hj; simp only [hlen] at hj; exact h.pos j hj
    · simp only [hlen]; exact h.first
    · simp only [hlen]; exact h.unpub
    · exact h.pub

/-- `_append` of the next block. -/
theorem pipeAppend_ok (k nbMin : Nat) (hnb : 0 < nbMin) (src : Bytes) (p : Pipe) (ord : List Nat)
    (hnodup : ord.Nodup)
    (hmem : ∀ i, i ∈ ord ↔ p.first ≤ i ∧ i < p.buffers.length)
    (hfirst : p.first = 0 ∨ p.first + nbMin ≤ p.buffers.length)
    (hlive : ∀ i, p.first ≤ i → i < p.buffers.length → slot p.buffers i = some (some (blockOf k src i)))
    (hlast : p.last = ord.getLast?)
    (hring : Ring (nxF p.buffers) (pvF p.buffers) ord) (data : Bytes) :
    ∃ bufs', pipeAppend p data = .ok { p with last := some p.buffers.length, buffers := bufs' } ∧
      bufs'.length = p.buffers.length + 1 ∧
      (∀ i, i < p.buffers.length → slot bufs' i = slot p.buffers i) ∧
      slot bufs' p.buffers.length = some (some data) ∧
      Ring (nxF bufs') (pvF bufs') (ord ++ [p.buffers.length]) := by
  cases ord with
  | nil =>
    have hlen : p.buffers.length = 0 := by
      rcases hfirst with h | h
      · rcases Nat.eq_zero_or_pos p.buffers.length with h0 | h0
        · exact h0
        · have := (hmem 0).mpr ⟨by omega, h0⟩; simp at this
      · have := (hmem p.first).mpr ⟨by omega, by omega⟩; simp at this
    have hnil : p.buffers = [] := List.length_eq_zero_iff.mp hlen
    simp only [List.getLast?_nil] at hlast
    refine ⟨p.buffers ++ [some ⟨data, 0, 0⟩], ?_, by simp, ?_, ?_, ?_⟩
    · unfold pipeAppend; rw [hlast]; simp [hlen]
    · intro i hi; omega
    · simp [hnil, slot]
    · simp [hnil, Ring, Links, nxF, pvF]
  | cons h t =>
    obtain ⟨last, hl⟩ : ∃ last, (h :: t).getLast? = some last :=
      ⟨(h :: t).getLast (by simp), List.getLast?_eq_some_getLast (by simp)⟩
    have hlm : last ∈ h :: t := List.mem_of_getLast? hl
    have hlv : ∀ i ∈ h :: t, slot p.buffers i = some (some (blockOf k src i)) := fun i hi =>
      hlive i ((hmem i).mp hi).1 ((hmem i).mp hi).2
    have hn : p.buffers.length ∉ h :: t := by
      intro hx; have := (hmem _).mp hx; omega
    obtain ⟨r1, r2⟩ := Ring_append _ _ h t last p.buffers.length hnodup hn hl hring
    obtain ⟨bl, _, c1, c2, c3, c4⟩ := bufAt_live _ _ _ (hlv last hlm)
    obtain ⟨b1, a1, l1, n1, q1, s1⟩ := setPrev_live p.buffers h p.buffers.length _ (hlv h (by simp))
    have hs1 := hlv last hlm
    rw [← s1] at hs1
    obtain ⟨b2, a2, l2, n2, q2, s2⟩ := setNext_live b1 last p.buffers.length _ hs1
    have hlen2 : b2.length = p.buffers.length := by omega
    have hnx : bl.next = h := by rw [c2, r1]
    refine ⟨b2 ++ [some ⟨data, h, last⟩], ?_, by simp [hlen2], ?_, ?_, ?_⟩
    · unfold pipeAppend
      rw [hlast, hl]
      simp only [c1, hnx, a1, a2, bind, Except.bind]
    · intro i hi
      rw [← s1, ← s2]
      simp [slot, List.getElem?_append_left (show i < b2.length by omega)]
    · simp [slot, ← hlen2]
    · apply r2
      · funext j
        by_cases hj : j = p.buffers.length
        · subst hj; simp [upd, nxF, ← hlen2]
        · have : upd (upd (nxF p.buffers) last p.buffers.length) p.buffers.length h j = nxF b2 j := by
            rw [n2, n1]
            exact upd_ne _ _ _ _ hj
          rw [this]
          rcases Nat.lt_or_ge j b2.length with hlt | hge
          · simp [nxF, List.getElem?_append_left hlt]
          · simp only [nxF]
            rw [List.getElem?_eq_none (show (b2 ++ [some (Buf.mk data h last)]).length ≤ j by simp; omega),
              List.getElem?_eq_none hge]
      · funext j
        by_cases hj : j = p.buffers.length
        · subst hj; simp [upd, pvF, ← hlen2]
        · have : upd (upd (pvF p.buffers) h p.buffers.length) p.buffers.length last j = pvF b2 j := by
            rw [q2, q1]
            exact upd_ne _ _ _ _ hj
          rw [this]
          rcases Nat.lt_or_ge j b2.length with hlt | hge
          · simp [pvF, List.getElem?_append_left hlt]
          · simp only [pvF]
            rw [List.getElem?_eq_none (show (b2 ++ [some (Buf.mk data h last)]).length ≤ j by simp; omega),
              List.getElem?_eq_none hge]

theorem slot_set_none (bufs : List (Option Buf)) (i : Nat) (hi : i < bufs.length) (j : Nat) :
    slot (bufs.set i none) j = if j = i then some none else slot bufs j := by
  by_cases h : j = i
  · subst h; simp [slot, hi]
  · have : i ≠ j := Ne.symm h
    simp [slot, List.getElem?_set, h, this]

theorem nxF_set_none (bufs : List (Option Buf)) (i j : Nat) (h : j ≠ i) :
    nxF (bufs.set i none) j = nxF bufs j := by
  have : i ≠ j := Ne.symm h
  simp [nxF, List.getElem?_set, this]

theorem pvF_set_none (bufs : List (Option Buf)) (i j : Nat) (h : j ≠ i) :
    pvF (bufs.set i none) j = pvF bufs j := by
  have : i ≠ j := Ne.symm h
  simp [pvF, List.getElem?_set, this]

theorem Ring_congr (nx pv nx' pv' : Nat → Nat) (l : List Nat)
    (hn : ∀ x ∈ l, nx' x = nx x) (hp : ∀ x ∈ l, pv' x = pv x) (h : Ring nx pv l) : Ring nx' pv' l := by
  cases l with
  | nil => trivial
  | cons a t =>
    apply Links_congr nx pv _ _ _ _ _ h
    · intro x hx
      apply hn
      rw [List.dropLast_concat] at hx; exact hx
    · intro x hx
      apply hp
      simp at hx ⊢
      rcases hx with h | h
      · right; exact h
      · left; exact h

/-- `_flush` keeps the invariant; it only discards blocks at the start. -/
theorem pipeFlush_ok (k nbMin : Nat) (hnb : 0 < nbMin) (src : Bytes) (n : Nat) :
    ∀ (p : Pipe) (ord : List Nat), p.buffers.length - p.first = n → PInv k nbMin src p ord →
    ∃ p' ord', pipeFlush nbMin p = .ok p' ∧ PInv k nbMin src p' ord' ∧
      p.first ≤ p'.first ∧ p'.buffers.length = p.buffers.length ∧ p'.address = p.address ∧
      p'.size = p.size ∧ p'.published = p.published := by
  induction n using Nat.strongRecOn with
  | ind n ih =>
    intro p ord hn h
    rw [pipeFlush]
    by_cases hc : (p.first : Int) < (p.buffers.length : Int) - nbMin
    · simp only [hc, dif_pos]
      have hf : p.first ∈ ord := (h.mem _).mpr ⟨Nat.le_refl _, by omega⟩
      obtain ⟨b, g0, g1, g2, g3, g4⟩ := bufAt_live _ _ _ (h.live_mem _ hf)
      rw [g1]
      simp only
      by_cases hl : p.last = some b.prev
      · -- the first block is the least recently used one
        have hord : ∃ t, ord = p.first :: t := by
          cases ord with
          | nil => simp at hf
          | cons x t =>
            refine ⟨t, ?_⟩
            by_cases hx : x = p.first
            · rw [hx]
            · exfalso
              have hft : p.first ∈ t := by
                simp at hf
                rcases hf with e | e
                · exact absurd e.symm hx
                · exact e
              obtain ⟨A, C, rfl⟩ := List.append_of_mem hft
              -- predecessor of first is in x :: A, last element is in first :: C
              have hr : Links (nxF p.buffers) (pvF p.buffers) ((x :: A) ++ p.first :: (C ++ [x])) := by
                have := h.ring
                simp only [Ring] at this
                simpa using this
              obtain ⟨A', y, hA'⟩ : ∃ A' y, x :: A = A' ++ [y] :=
                ⟨(x :: A).dropLast, (x :: A).getLast (by simp), (List.dropLast_concat_getLast (by simp)).symm⟩
              rw [hA', List.append_assoc,
                show A' ++ ([y] ++ p.first :: (C ++ [x])) = A' ++ y :: (p.first :: (C ++ [x])) from rfl,
                Links_append] at hr
              have hprev : pvF p.buffers p.first = y := hr.2.2.1
              have hlast := h.last
              rw [hl, g3, hprev] at hlast
              have hyl : y ∈ p.first :: C := by
                have : (x :: (A ++ p.first :: C)).getLast? = (p.first :: C).getLast? := by
                  rw [← List.cons_append, List.getLast?_append]
                  simp [List.getLast?_cons]
                rw [this] at hlast
                exact List.mem_of_getLast? hlast.symm
              have hnd := h.nodup
              rw [← List.cons_append, hA'] at hnd
              exact (List.nodup_append.mp hnd).2.2 y (by simp) y hyl rfl
        obtain ⟨t, rfl⟩ := hord
        -- there is a second element
        have hsec : p.first + 1 ∈ p.first :: t := (h.mem _).mpr ⟨by omega, by omega⟩
        obtain ⟨c, t', rfl⟩ : ∃ c t', t = c :: t' := by
          cases t with
          | nil => simp at hsec
          | cons c t' => exact ⟨c, t', rfl⟩
        obtain ⟨last, hlast⟩ : ∃ last, (c :: t').getLast? = some last :=
          ⟨(c :: t').getLast (by simp), List.getLast?_eq_some_getLast (by simp)⟩
        obtain ⟨r1, r2, r3⟩ := Ring_remove_head _ _ p.first c t' last h.nodup hlast h.ring
        have hbn : b.next = c := by rw [g2, r1]
        have hbp : b.prev = last := by rw [g3, r2]
        have hlm : last ∈ c :: t' := List.mem_of_getLast? hlast
        rw [if_neg (by simp [hl])]
        simp only [hbn, hbp]
        obtain ⟨b1, a1, l1, n1, q1, s1⟩ := setNext_live p.buffers last c _ (h.live_mem last (by simp [hlm]))
        have hs1 := h.live_mem c (by simp)
        rw [← s1] at hs1
        obtain ⟨b2, a2, l2, n2, q2, s2⟩ := setPrev_live b1 c last _ hs1
        have hlen : b2.length = p.buffers.length := by omega
        simp only [a1, a2, hlen, dif_pos]
        have hslot : slot b2 = slot p.buffers := by rw [s2, s1]
        have hflt : p.first < b2.length := by omega
        have hfn : p.first ∉ c :: t' := (List.nodup_cons.mp h.nodup).1
        have hinv : PInv k nbMin src { p with buffers := b2.set p.first none, first := p.first + 1 } (c :: t') := by
          constructor
          · exact (List.nodup_cons.mp h.nodup).2
          · intro j
            have hj := h.mem j
            simp only [List.length_set, hlen]
            constructor
            · intro hjm
              have h1 := hj.mp (List.mem_cons_of_mem _ hjm)
              have h2 : j ≠ p.first := fun e => hfn (e ▸ hjm)
              omega
            · intro hjm
              have h1 := hj.mpr ⟨by omega, by omega⟩
              have h2 : j ≠ p.first := by omega
              simp only [List.mem_cons] at h1 ⊢
              rcases h1 with e | e
              · exact absurd e h2
              · exact e
          · intro j hj
            simp only at hj ⊢
            rw [slot_set_none _ _ hflt]
            by_cases e : j = p.first
            · simp [e]
            · simp only [e, if_false, hslot]; exact h.dead j (by omega)
          · intro j hj1 hj2
            simp only [List.length_set, hlen] at hj1 hj2 ⊢
            rw [slot_set_none _ _ hflt, if_neg (by omega), hslot]
            exact h.live j (by omega) hj2
          · simp only
            rw [h.last, List.getLast?_cons_cons]
          · apply Ring_congr (nxF b2) (pvF b2)
            · intro x hx; exact nxF_set_none _ _ _ (fun e => hfn (e ▸ hx))
            · intro x hx; exact pvF_set_none _ _ _ (fun e => hfn (e ▸ hx))
            · rw [n2, n1, q2, q1]; exact r3
          · simp only [List.length_set, hlen]; exact h.input
          · intro j hj; simp only [List.length_set, hlen] at hj; exact h.pos j hj
          · right; simp only [List.length_set, hlen]; omega
          · simp only [List.length_set, hlen]; exact h.unpub
          · exact h.pub
        obtain ⟨p', ord', e1, e2, e3, e4, e5, e6, e7⟩ :=
          ih (p.buffers.length - (p.first + 1)) (by omega) _ _ (by simp [hlen]) hinv
        refine ⟨p', ord', e1, e2, ?_, ?_, e5, e6, e7⟩
        · simp only at e3; omega
        · simp only [List.length_set, hlen] at e4; exact e4
      · simp only [ne_eq, hl, not_false_eq_true, if_true]
        exact ⟨p, ord, rfl, h, Nat.le_refl _, rfl, rfl, rfl, rfl⟩
    · simp only [hc, dif_neg, not_false_eq_true]
      exact ⟨p, ord, rfl, h, Nat.le_refl _, rfl, rfl, rfl, rfl⟩

/-- Loading blocks keeps the invariant; afterwards either all the requested
blocks are there or the source is exhausted. -/
theorem pipeLoad_ok (k nbMin : Nat) (hnb : 0 < nbMin) (src : Bytes) (count : Nat) :
    ∀ (p : Pipe) (ord : List Nat), PInv k nbMin src p ord →
    ∃ p' ord', pipeLoad k p count = .ok p' ∧ PInv k nbMin src p' ord' ∧
      p'.first = p.first ∧ p'.address = p.address ∧
      p.buffers.length ≤ p'.buffers.length ∧
      (p.buffers.length + count ≤ p'.buffers.length ∨ p'.input = []) ∧
      (∃ l, p'.published = p.published ++ l) := by
  induction count with
  | zero => intro p ord h; exact ⟨p, ord, rfl, h, rfl, rfl, Nat.le_refl _, by simp, [], by simp⟩
  | succ count ih =>
    intro p ord h
    unfold pipeLoad
    have hk : 1 <<< k = 2 ^ k := by rw [Nat.shiftLeft_eq, Nat.one_mul]
    have hkpos := Nat.two_pow_pos k
    simp only [hk]
    have hdata : p.input.take (2 ^ k) = blockOf k src p.buffers.length := by
      rw [h.input]; rfl
    have hdrop : p.input.drop (2 ^ k) = src.drop ((p.buffers.length + 1) * 2 ^ k) := by
      rw [h.input, List.drop_drop, Nat.add_mul, Nat.one_mul]
    have hlenb : (blockOf k src p.buffers.length).length = min (2 ^ k) (src.length - p.buffers.length * 2 ^ k) := by
      simp [blockOf]
    rw [hdata, hdrop]
    -- appending the block
    have happ : ∀ q : Pipe, q.first = p.first → q.buffers = p.buffers → q.last = p.last →
        ∃ bufs', pipeAppend q (blockOf k src p.buffers.length) =
            .ok { q with last := some p.buffers.length, buffers := bufs' } ∧
          bufs'.length = p.buffers.length + 1 ∧
          (∀ i, i < p.buffers.length → slot bufs' i = slot p.buffers i) ∧
          slot bufs' p.buffers.length = some (some (blockOf k src p.buffers.length)) ∧
          Ring (nxF bufs') (pvF bufs') (ord ++ [p.buffers.length]) := by
      intro q h1 h2 h3
      have := pipeAppend_ok k nbMin hnb src q ord h.nodup (by rw [h1, h2]; exact h.mem)
        (by rw [h1, h2]; exact h.first) (by rw [h1, h2]; exact h.live) (by rw [h3]; exact h.last)
        (by rw [h2]; exact h.ring) (blockOf k src p.buffers.length)
      rw [h2] at this
      exact this
    -- the invariant after an append
    have hinv : ∀ (q : Pipe) (bufs' : List (Option Buf)), q.first = p.first →
        bufs'.length = p.buffers.length + 1 →
        (∀ i, i < p.buffers.length → slot bufs' i = slot p.buffers i) →
        slot bufs' p.buffers.length = some (some (blockOf k src p.buffers.length)) →
        Ring (nxF bufs') (pvF bufs') (ord ++ [p.buffers.length]) →
        q.buffers = bufs' → q.last = some p.buffers.length →
        q.input = src.drop ((p.buffers.length + 1) * 2 ^ k) →
        p.buffers.length * 2 ^ k < src.length →
        (q.published = [] → (p.buffers.length + 1) * 2 ^ k ≤ src.length ∧ q.size = none) →
        (q.published ≠ [] → q.published.head? = some src.length ∧ q.input = []) →
        PInv k nbMin src q (ord ++ [p.buffers.length]) := by
      intro q bufs' h1 h2 h3 h4 h5 h6 h7 h8 h9 h10 h11
      have hfl := h.first_le
      constructor
      · rw [List.nodup_append]
        refine ⟨h.nodup, by simp, ?_⟩
        intro a ha b hb
        simp at hb
        have := (h.mem a).mp ha
        omega
      · intro i
        rw [List.mem_append, h.mem i, h1, h6, h2]
        simp only [List.mem_singleton]
        omega
      · intro i hi
        rw [h6, h3 i (by omega)]
        exact h.dead i (by omega)
      · intro i hi1 hi2
        rw [h6, h2] at hi2
        rw [h6]
        by_cases e : i = p.buffers.length
        · rw [e]; exact h4
        · rw [h3 i (by omega)]; exact h.live i (by omega) (by omega)
      · rw [h7]; simp
      · rw [h6]; exact h5
      · rw [h6, h2]; exact h8
      · intro i hi
        rw [h6, h2] at hi
        by_cases e : i = p.buffers.length
        · rw [e]; exact h9
        · exact h.pos i (by omega)
      · rw [h1, h6, h2]
        rcases h.first with e | e
        · left; exact e
        · right; omega
      · rw [h6, h2]; exact h10
      · exact h11
    by_cases hshort : (blockOf k src p.buffers.length).length < 2 ^ k
    · simp only [hshort, if_true]
      have hend : src.length < (p.buffers.length + 1) * 2 ^ k := by
        rw [hlenb] at hshort
        rw [Nat.add_mul, Nat.one_mul]
        omega
      have hnil : src.drop ((p.buffers.length + 1) * 2 ^ k) = [] :=
        List.drop_of_length_le (by omega)
      have hsz : p.published = [] →
          p.buffers.length <<< k + (blockOf k src p.buffers.length).length = src.length := by
        intro hp
        have := (h.unpub hp).1
        rw [Nat.shiftLeft_eq, hlenb]
        rw [Nat.add_mul, Nat.one_mul] at hend
        omega
      have hhead : (p.published ++ [p.buffers.length <<< k + (blockOf k src p.buffers.length).length]).head?
          = some src.length := by
        cases hp : p.published with
        | nil => simp [hsz hp]
        | cons x xs =>
          have := (h.pub (by simp [hp])).1
          rw [hp] at this
          simpa using this
      by_cases hne : blockOf k src p.buffers.length = []
      · simp only [hne, ne_eq, not_true_eq_false, if_false]
        refine ⟨_, ord, rfl, ?_, rfl, rfl, Nat.le_refl _, Or.inr hnil, _, rfl⟩
        have hle : src.length ≤ p.buffers.length * 2 ^ k := by
          have : (blockOf k src p.buffers.length).length = 0 := by rw [hne]; rfl
          rw [hlenb] at this
          omega
        constructor
        · exact h.nodup
        · exact h.mem
        · exact h.dead
        · exact h.live
        · exact h.last
        · exact h.ring
        · simp only
          rw [hnil, List.drop_of_length_le hle]
        · exact h.pos
        · exact h.first
        · intro hp; simp at hp
        · intro _
          refine ⟨?_, hnil⟩
          rw [hne] at hhead
          exact hhead
      · simp only [ne_eq, hne, not_false_eq_true, if_true]
        obtain ⟨bufs', a1, a2, a3, a4, a5⟩ := happ
          { p with input := src.drop ((p.buffers.length + 1) * 2 ^ k),
                   size := some (p.buffers.length <<< k + (blockOf k src p.buffers.length).length),
                   published := p.published ++ [p.buffers.length <<< k + (blockOf k src p.buffers.length).length] }
          rfl rfl rfl
        rw [a1]
        refine ⟨_, ord ++ [p.buffers.length], rfl, ?_, rfl, rfl, by simp [a2], Or.inr hnil, _, rfl⟩
        refine hinv _ bufs' ?_ a2 a3 a4 a5 ?_ ?_ ?_ ?_ ?_ ?_
        · rfl
        · rfl
        · rfl
        · rfl
        · have : (blockOf k src p.buffers.length).length ≠ 0 := by
            intro e; exact hne (List.length_eq_zero_iff.mp e)
          rw [hlenb] at this
          omega
        · intro hp; simp at hp
        · intro _; exact ⟨hhead, hnil⟩
    · simp only [hshort, if_false]
      have hfull : (p.buffers.length + 1) * 2 ^ k ≤ src.length := by
        rw [hlenb] at hshort
        rw [Nat.add_mul, Nat.one_mul]
        omega
      obtain ⟨bufs', a1, a2, a3, a4, a5⟩ := happ
        { p with input := src.drop ((p.buffers.length + 1) * 2 ^ k) } rfl rfl rfl
      rw [a1]
      simp only
      have hpubnil : p.published = [] := by
        cases hp : p.published with
        | nil => rfl
        | cons x xs =>
          exfalso
          have hi := (h.pub (by simp [hp])).2
          rw [h.input] at hi
          have : (src.drop (p.buffers.length * 2 ^ k)).length = 0 := by rw [hi]; rfl
          rw [List.length_drop] at this
          rw [Nat.add_mul, Nat.one_mul] at hfull
          omega
      have hinv' := hinv { p with input := src.drop ((p.buffers.length + 1) * 2 ^ k),
                                  last := some p.buffers.length, buffers := bufs' }
        bufs' rfl a2 a3 a4 a5 rfl rfl rfl
        (by rw [Nat.add_mul, Nat.one_mul] at hfull; omega)
        (fun hp => ⟨hfull, (h.unpub hpubnil).2⟩) (fun hp => absurd hpubnil hp)
      obtain ⟨p', ord', e1, e2, e3, e4, e5, e6, e7⟩ := ih _ _ hinv'
      refine ⟨p', ord', e1, e2, e3, e4, ?_, ?_, e7⟩
      · simp only [a2] at e5; omega
      · simp only [a2] at e6
        rcases e6 with e | e
        · left; omega
        · right; exact e

/-- Fetching consecutive blocks: the result is the corresponding part of the
source, or the "buffers too small" error if the first one was discarded. -/
theorem pipeJoin_ok (k nbMin : Nat) (src : Bytes) (count : Nat) :
    ∀ (p : Pipe) (ord : List Nat) (acc : Bytes) (index : Nat), PInv k nbMin src p ord →
    ∃ p' ord', PInv k nbMin src p' ord' ∧
      p'.first = p.first ∧ p'.address = p.address ∧ p'.buffers.length = p.buffers.length ∧
      p'.size = p.size ∧ p'.published = p.published ∧
      ((p.first ≤ index ∨ p.buffers.length ≤ index ∨ count = 0) →
        pipeJoin p acc index count = (p', .ok (acc ++ (List.range' index count).flatMap
          (fun i => if i < p.buffers.length then blockOf k src i else [])))) ∧
      (index < p.first → 0 < count → pipeJoin p acc index count = (p', .error .inputStream)) := by
  induction count with
  | zero =>
    intro p ord acc index h
    exact ⟨p, ord, h, rfl, rfl, rfl, rfl, rfl, fun _ => by simp [pipeJoin], fun _ h => absurd h (by omega)⟩
  | succ count ih =>
    intro p ord acc index h
    rcases Nat.lt_or_ge index p.first with hd | hl
    · refine ⟨p, ord, h, rfl, rfl, rfl, rfl, rfl, ?_, ?_⟩
      · intro hor
        have := h.first_le
        omega
      · intro _ _
        have hs := h.dead index hd
        unfold pipeJoin pipeGet
        unfold slot at hs
        cases hb : p.buffers[index]? with
        | none => simp [hb] at hs
        | some o =>
          cases o with
          | none => simp
          | some b => simp [hb] at hs
    · rcases Nat.lt_or_ge index p.buffers.length with hlt | hge
      · obtain ⟨p1, ord1, e1, e2, e3, e4, e5, e6, e7⟩ :=
          pipeGet_live k nbMin src p ord h index ((h.mem _).mpr ⟨hl, hlt⟩)
        obtain ⟨p2, ord2, f1, f2, f3, f4, f5, f6, f7, f8⟩ := ih p1 ord1 (acc ++ blockOf k src index) (index + 1) e2
        refine ⟨p2, ord2, f1, by omega, by omega, by omega, by rw [f5, e6], by rw [f6, e7], ?_, ?_⟩
        · intro _
          unfold pipeJoin
          rw [e1]
          simp only
          rw [f7 (by left; omega), e4]
          simp [List.range'_succ, hlt]
        · intro hc; omega
      · obtain ⟨p2, ord2, f1, f2, f3, f4, f5, f6, f7, f8⟩ := ih p ord acc (index + 1) h
        have hget : pipeGet p index = .ok (p, []) := by
          unfold pipeGet
          rw [List.getElem?_eq_none hge]
        refine ⟨p2, ord2, f1, f2, f3, f4, f5, f6, ?_, ?_⟩
        · intro _
          unfold pipeJoin
          rw [hget]
          simp only [List.append_nil]
          rw [f7 (by omega)]
          simp [List.range'_succ, Nat.not_lt.mpr hge]
        · intro hc; omega

/-- The blocks of a range, glued together, are the bytes of the range. -/
theorem blocks_flatten (k : Nat) (src : Bytes) (len : Nat)
    (hall : ∀ i, len ≤ i → src.length ≤ i * 2 ^ k) (index count : Nat) :
    (List.range' index count).flatMap (fun i => if i < len then blockOf k src i else []) =
      (src.drop (index * 2 ^ k)).take (count * 2 ^ k) := by
  induction count generalizing index with
  | zero => simp
  | succ count ih =>
    rw [List.range'_succ, List.flatMap_cons, ih]
    have h1 : (if index < len then blockOf k src index else []) = blockOf k src index := by
      split
      · rfl
      · have := hall index (by omega)
        simp [blockOf, List.drop_of_length_le this]
    rw [h1, blockOf, Nat.add_mul count 1, Nat.one_mul, Nat.add_comm (count * 2 ^ k), List.take_add,
      List.drop_drop, Nat.add_mul, Nat.one_mul]

theorem blocks_flatten_lt (k : Nat) (src : Bytes) (len index count : Nat) (h : index + count ≤ len) :
    (List.range' index count).flatMap (fun i => if i < len then blockOf k src i else []) =
      (src.drop (index * 2 ^ k)).take (count * 2 ^ k) := by
  induction count generalizing index with
  | zero => simp
  | succ count ih =>
    rw [List.range'_succ, List.flatMap_cons, ih _ (by omega), if_pos (by omega), blockOf,
      Nat.add_mul count 1, Nat.one_mul, Nat.add_comm (count * 2 ^ k), List.take_add, List.drop_drop,
      Nat.add_mul, Nat.one_mul]

theorem setNext_length {bufs bufs' : List (Option Buf)} {i v : Nat} (h : setNext bufs i v = .ok bufs') :
    bufs'.length = bufs.length := by
  unfold setNext at h
  split at h
  · cases h
  · cases h; simp

theorem setPrev_length {bufs bufs' : List (Option Buf)} {i v : Nat} (h : setPrev bufs i v = .ok bufs') :
    bufs'.length = bufs.length := by
  unfold setPrev at h
  split at h
  · cases h
  · cases h; simp

theorem pipeAppend_length {p p' : Pipe} {data : Bytes} (h : pipeAppend p data = .ok p') :
    p'.buffers.length = p.buffers.length + 1 ∧ p'.published = p.published := by
  unfold pipeAppend at h
  split at h
  · cases h; simp
  · rename_i prev hprev
    simp only [bind, Except.bind] at h
    split at h
    · cases h
    · split at h
      · cases h
      · rename_i b1 hb1
        split at h
        · cases h
        · rename_i b2 hb2
          cases h
          simp [setNext_length hb2, setPrev_length hb1]

/-- As long as the end of the source was not met, all the requested blocks are
loaded. -/
theorem pipeLoad_unpub (k count : Nat) : ∀ (p p' : Pipe), pipeLoad k p count = .ok p' → p'.published = [] →
    p'.buffers.length = p.buffers.length + count := by
  induction count with
  | zero => intro p p' h _; cases h; rfl
  | succ count ih =>
    intro p p' h hp
    unfold pipeLoad at h
    simp only at h
    split at h
    · split at h
      · have := (pipeAppend_length h).2
        rw [hp] at this; simp at this
      · cases h; simp at hp
    · split at h
      · cases h
      · rename_i q hq
        have h1 := (pipeAppend_length hq).1
        have h2 := ih q p' h hp
        simp only at h1
        omega

/-- `read`: the requested bytes of the source, or the error. -/
theorem pipeRead_ok (k nbMin : Nat) (hnb : 0 < nbMin) (src : Bytes) (p : Pipe) (ord : List Nat)
    (h : PInv k nbMin src p ord) (n : Nat) :
    ∃ p' ord', PInv k nbMin src p' ord' ∧ p.first ≤ p'.first ∧
      (∃ l, p'.published = p.published ++ l) ∧
      ((p.first ≤ p.address / 2 ^ k ∨ (n = 0 ∧ p.address % 2 ^ k = 0) →
          pipeRead k nbMin p n = (p', .ok ((src.drop p.address).take n)) ∧
          p'.address = p.address + ((src.drop p.address).take n).length)) ∧
      (p.address / 2 ^ k < p.first ∧ ¬ (n = 0 ∧ p.address % 2 ^ k = 0) →
          pipeRead k nbMin p n = (p', .error .inputStream) ∧ p'.address = p.address) ∧
      (p'.published = [] → p.address + n < src.length) := by
  have hkpos := Nat.two_pow_pos k
  have hk : 1 <<< k = 2 ^ k := by rw [Nat.shiftLeft_eq, Nat.one_mul]
  obtain ⟨p1, ord1, e1, e2, e3, e4, e5, e6, l1, e7⟩ :=
    pipeLoad_ok k nbMin hnb src ((p.address + n) / 2 ^ k + 1 - p.buffers.length) p ord h
  obtain ⟨stop, hstop⟩ : ∃ stop, (if p.address + n = 0 then 0 else ((p.address + n - 1) / 2 ^ k) + 1) = stop :=
    ⟨_, rfl⟩
  obtain ⟨p2, ord2, f1, f2, f3, f4, f5, f6, f7, f8⟩ :=
    pipeJoin_ok k nbMin src (stop - p.address / 2 ^ k) p1 ord1 [] (p.address / 2 ^ k) e2
  obtain ⟨p3, ord3, g1, g2, g3, g4, g5, g6, g7⟩ := pipeFlush_ok k nbMin hnb src _ p2 ord2 rfl f1
  have hdm := Nat.div_add_mod p.address (2 ^ k)
  have hml := Nat.mod_lt p.address hkpos
  -- number of blocks to fetch
  have hcount : stop - p.address / 2 ^ k = 0 ↔ (n = 0 ∧ p.address % 2 ^ k = 0) := by
    constructor
    · intro hz
      subst hstop
      split at hz
      · have : p.address = 0 := by omega
        simp [this]; omega
      · rename_i hne
        have h1 : (p.address + n - 1) / 2 ^ k < p.address / 2 ^ k := by omega
        have h2 : (p.address + n - 1) < p.address / 2 ^ k * 2 ^ k := (Nat.div_lt_iff_lt_mul hkpos).mp h1
        rw [Nat.mul_comm] at h2
        omega
    · rintro ⟨rfl, hm⟩
      subst hstop
      split
      · exact Nat.zero_sub _
      · have h1 : (p.address + 0 - 1) / 2 ^ k < p.address / 2 ^ k := by
          rw [Nat.div_lt_iff_lt_mul hkpos, Nat.mul_comm]; omega
        omega
  have hstople : stop ≤ (p.address + n) / 2 ^ k + 1 := by
    subst hstop
    split
    · exact Nat.zero_le _
    · have : (p.address + n - 1) / 2 ^ k ≤ (p.address + n) / 2 ^ k := Nat.div_le_div_right (by omega)
      omega
  have hjoined : (List.range' (p.address / 2 ^ k) (stop - p.address / 2 ^ k)).flatMap
      (fun i => if i < p1.buffers.length then blockOf k src i else []) =
      (src.drop (p.address / 2 ^ k * 2 ^ k)).take ((stop - p.address / 2 ^ k) * 2 ^ k) := by
    rcases Nat.eq_zero_or_pos (stop - p.address / 2 ^ k) with hz | hz
    · simp [hz]
    · rcases e6 with e | e
      · apply blocks_flatten_lt
        omega
      · apply blocks_flatten
        have hi := e2.input
        rw [e] at hi
        have hlen : (src.drop (p1.buffers.length * 2 ^ k)).length = 0 := by rw [← hi]; rfl
        rw [List.length_drop] at hlen
        intro i hi2
        have : p1.buffers.length * 2 ^ k ≤ i * 2 ^ k := Nat.mul_le_mul_right _ hi2
        omega
  have hdata : (((src.drop (p.address / 2 ^ k * 2 ^ k)).take ((stop - p.address / 2 ^ k) * 2 ^ k)).drop
      (p.address % 2 ^ k)).take n = (src.drop p.address).take n := by
    rcases Nat.eq_zero_or_pos n with rfl | hn
    · simp
    · have hst : p.address + n ≤ stop * 2 ^ k := by
        subst hstop
        rw [if_neg (by omega)]
        have h1 := Nat.div_add_mod (p.address + n - 1) (2 ^ k)
        have h2 := Nat.mod_lt (p.address + n - 1) hkpos
        rw [Nat.add_mul, Nat.one_mul, Nat.mul_comm ((p.address + n - 1) / 2 ^ k)]
        omega
      rw [List.drop_take, List.drop_drop, List.take_take, Nat.mul_comm (p.address / 2 ^ k), hdm]
      congr 1
      rw [Nat.sub_mul, Nat.mul_comm (p.address / 2 ^ k)]
      omega
  have hread : pipeRead k nbMin p n = (match pipeJoin p1 [] (p.address / 2 ^ k) (stop - p.address / 2 ^ k) with
      | (p, .error e) => (p, .error e)
      | (p, .ok joined) =>
        match pipeFlush nbMin p with
        | .error e => (p, .error e)
        | .ok p' => ({ p' with address := p'.address + ((joined.drop (p1.address % 2 ^ k)).take n).length },
            .ok ((joined.drop (p1.address % 2 ^ k)).take n))) := by
    unfold pipeRead
    simp only [Nat.shiftRight_eq_div_pow, hk, e1, e4]
    rw [hstop]
    rcases pipeJoin p1 [] (p.address / 2 ^ k) (stop - p.address / 2 ^ k) with ⟨q, _ | j⟩
    · rfl
    · rfl
  refine ⟨if p.first ≤ p.address / 2 ^ k ∨ (n = 0 ∧ p.address % 2 ^ k = 0) then
      { p3 with address := p.address + ((src.drop p.address).take n).length } else p2,
    if p.first ≤ p.address / 2 ^ k ∨ (n = 0 ∧ p.address % 2 ^ k = 0) then ord3 else ord2, ?_, ?_, ?_, ?_, ?_, ?_⟩
  · split
    · exact ⟨g2.nodup, g2.mem, g2.dead, g2.live, g2.last, g2.ring, g2.input, g2.pos, g2.first, g2.unpub, g2.pub⟩
    · exact f1
  · split
    · simp only; omega
    · omega
  · refine ⟨l1, ?_⟩
    split
    · simp only [g7, f6, e7]
    · simp only [f6, e7]
  · intro hgood
    rw [if_pos hgood]
    refine ⟨?_, rfl⟩
    rw [hread, f7 ?_]
    · simp only [List.nil_append, g1, hjoined, e4, hdata, g5, f3]
    · rcases hgood with hg | hg
      · left; omega
      · right; right; exact hcount.mpr hg
  · intro hbad
    rw [if_neg (by omega)]
    refine ⟨?_, by omega⟩
    rw [hread, f8 (by omega) ?_]
    rcases Nat.eq_zero_or_pos (stop - p.address / 2 ^ k) with hz | hz
    · exact absurd (hcount.mp hz) hbad.2
    · exact hz
  · intro hpub
    have hp1 : p1.published = [] := by
      split at hpub
      · simpa only [g7, f6] using hpub
      · simpa only [f6] using hpub
    have hcnt := pipeLoad_unpub k _ p p1 e1 hp1
    have hle := (e2.unpub hp1).1
    have hge : (p.address + n) / 2 ^ k + 1 ≤ p1.buffers.length := by omega
    have h1 : ((p.address + n) / 2 ^ k + 1) * 2 ^ k ≤ p1.buffers.length * 2 ^ k := Nat.mul_le_mul_right _ hge
    have h2 := Nat.div_add_mod (p.address + n) (2 ^ k)
    have h3 := Nat.mod_lt (p.address + n) hkpos
    rw [Nat.add_mul, Nat.one_mul, Nat.mul_comm] at h1
    omega

end Hachoir.Stream

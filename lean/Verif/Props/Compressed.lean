import Verif.Field.Compressed
import Verif.Stream.InputLemmas

/-!
# Property C41: sub-streams of compressed fields
-/

set_option linter.unusedVariables false

namespace Props
open Hachoir Hachoir.Stream Hachoir.SubFile

/-- Contract of a decompressor for the format whose plain text of the compressed
bytes `x` is `F x`.  `Rel s fed e` reads: in state `s` the decompressor has been
fed `fed` and has handed out the first `e` bytes of `F fed`.

* A call without data hands out the next bytes of `F fed`: at least
  `min size available` of them (zlib: exactly that many; a decompressor that
  ignores `size`, like bz2's: all of them).
* A call with data is only specified when everything was handed out before (a
  zlib object would lose its `unconsumed_tail` otherwise). -/
structure Decompresses {σ : Type} (D : Decompressor σ) (F : Bytes → Bytes) (Rel : σ → Bytes → Nat → Prop) : Prop where
  mono : ∀ x y, F x <+: F (x ++ y)
  next : ∀ s fed e size, Rel s fed e → e ≤ (F fed).length → ∃ k,
    (D.call s size none).2 = ((F fed).drop e).take k ∧ min size ((F fed).length - e) ≤ k ∧
    k ≤ (F fed).length - e ∧ Rel (D.call s size none).1 fed (e + k)
  feed : ∀ s fed size c, Rel s fed (F fed).length → ∃ k,
    (D.call s size (some c)).2 = ((F (fed ++ c)).drop (F fed).length).take k ∧
    min size ((F (fed ++ c)).length - (F fed).length) ≤ k ∧
    k ≤ (F (fed ++ c)).length - (F fed).length ∧ Rel (D.call s size (some c)).1 (fed ++ c) ((F fed).length + k)

/-- Specification: successive reads of a file with contents `g` from position
`pos`. -/
def slices (g : Bytes) : Nat → List Nat → List Bytes
  | _, [] => []
  | pos, n :: ns => (g.drop pos).take n :: slices g (pos + ((g.drop pos).take n).length) ns

/-- Consistency of a `CompressedStream` after `pos` bytes were delivered. -/
def CInv {σ : Type} (F : Bytes → Bytes) (Rel : σ → Bytes → Nat → Prop) (comp : Bytes)
    (st : CState σ) (pos : Nat) : Prop :=
  ∃ fed rest e, comp = fed ++ rest ∧ st.offset = 8 * fed.length ∧ Rel st.dec fed e ∧
    e ≤ (F fed).length ∧ pos ≤ e ∧ st.buffer = ((F comp).take e).drop pos

theorem prefix_take {α : Type _} {a b : List α} (h : a <+: b) (e : Nat) (he : e ≤ a.length) : a.take e = b.take e := by
  obtain ⟨t, rfl⟩ := h
  rw [List.take_append_of_le_length he]

theorem prefix_window {α : Type _} {a b : List α} (h : a <+: b) (e k : Nat) (hk : e + k ≤ a.length) :
    (a.drop e).take k = (b.drop e).take k := by
  obtain ⟨t, rfl⟩ := h
  rw [List.drop_append_of_le_length (by omega), List.take_append_of_le_length (by simp; omega)]

theorem readLoop_ok {σ : Type} (D : Decompressor σ) (F : Bytes → Bytes) (Rel : σ → Bytes → Nat → Prop)
    (hD : Decompresses D F Rel) (comp : Bytes) (hne : comp ≠ []) (s : InputStream) (hs : s.read = stringRead comp)
    (hsz : s.size = some (8 * comp.length)) :
    ∀ (fuel : Nat) (dec : σ) (fed rest : Bytes) (size : Nat) (d : Bytes) (took : Nat) (acc : Bytes),
      comp = fed ++ rest → Rel dec fed (F fed).length → 0 < size → d.length ≤ took → rest.length < fuel →
      ∃ st', readLoop D s fuel dec (8 * fed.length) size d took acc =
          .ok (st', acc ++ ((F comp).drop (F fed).length).take size) ∧
        CInv F Rel comp st' ((F fed).length + (((F comp).drop (F fed).length).take size).length) := by
  intro fuel
  induction fuel with
  | zero => intro _ _ _ _ _ _ _ _ _ _ _ h; omega
  | succ fuel ih =>
    intro dec fed rest size d took acc hc hrel hsize hd hf
    have hclen : comp.length = fed.length + rest.length := by rw [hc, List.length_append]
    have hcpos : 0 < comp.length := List.length_pos_iff.mpr hne
    unfold readLoop
    simp only [hsz, ne_eq, show ¬ (8 * comp.length = 0) from by omega, not_false_eq_true, if_true,
      Option.isSome_some, Option.some.injEq, true_and]
    by_cases hr : rest = []
    · subst hr
      have hn : min (((8 * comp.length : Nat) : Int) - ((8 * fed.length : Nat) : Int)) 4096 = 0 := by
        simp at hclen; omega
      rw [if_pos hn]
      have hcf : comp = fed := by simpa using hc
      refine ⟨⟨dec, 8 * fed.length, d.drop took⟩, ?_, ?_⟩
      · rw [hcf, List.drop_eq_nil_of_le (Nat.le_refl _)]; simp
      · refine ⟨fed, [], (F fed).length, hc, rfl, hrel, Nat.le_refl _, ?_, ?_⟩
        · rw [hcf, List.drop_eq_nil_of_le (Nat.le_refl _)]; simp
        · rw [hcf, List.drop_eq_nil_of_le hd]; simp
    · have hrpos : 0 < rest.length := List.length_pos_iff.mpr hr
      obtain ⟨n, hn⟩ : ∃ n, n = min rest.length 512 := ⟨_, rfl⟩
      have hnval : min (((8 * comp.length : Nat) : Int) - ((8 * fed.length : Nat) : Int)) 4096 = ((8 * n : Nat) : Int) := by
        omega
      rw [hnval, if_neg (by omega), if_neg (by omega), hs]
      have hread := stringRead_ok comp (8 * fed.length) (8 * n) (by omega)
      have e1 : 8 * fed.length / 8 = fed.length := by omega
      have e2 : 8 * fed.length % 8 = 0 := by omega
      have e3 : (8 * n + 0 + 7) / 8 = n := by omega
      rw [e1, e2, e3] at hread
      have htn : (((8 * n : Nat) : Int)).toNat = 8 * n := by omega
      have hwin : (comp.drop fed.length).take n = rest.take n := by
        rw [hc, List.drop_left]
      rw [htn, hread, hwin]
      obtain ⟨k, hk1, hk2, hk3, hk4⟩ := hD.feed dec fed size (rest.take n) hrel
      have hpre : F (fed ++ rest.take n) <+: F comp := by
        have := hD.mono (fed ++ rest.take n) (rest.drop n)
        rwa [List.append_assoc, List.take_append_drop, ← hc] at this
      have hpre0 : F fed <+: F (fed ++ rest.take n) := hD.mono _ _
      have hle0 : (F fed).length ≤ (F (fed ++ rest.take n)).length := hpre0.length_le
      have hle1 : (F (fed ++ rest.take n)).length ≤ (F comp).length := hpre.length_le
      rcases hcall : D.call dec size (some (rest.take n)) with ⟨dec', d'⟩
      rw [hcall] at hk1 hk4
      simp only at hk1 hk4
      simp only [hcall]
      have hdlen : d'.length = k := by rw [hk1, List.length_take, List.length_drop]; omega
      have hd' : d' = ((F comp).drop (F fed).length).take k := by
        rw [hk1]; exact prefix_window hpre _ _ (by omega)
      have hfedlen : 8 * fed.length + 8 * (rest.take n).length = 8 * (fed ++ rest.take n).length := by
        rw [List.length_append]; omega
      rw [hfedlen]
      have hc' : comp = (fed ++ rest.take n) ++ rest.drop n := by
        rw [List.append_assoc, List.take_append_drop, ← hc]
      by_cases hlt : d'.length < size
      · rw [if_pos hlt]
        have hkall : (F fed).length + k = (F (fed ++ rest.take n)).length := by omega
        rw [hkall] at hk4
        obtain ⟨st', h1, h2⟩ := ih dec' (fed ++ rest.take n) (rest.drop n) (size - d'.length) d' size
          (acc ++ d'.take size) hc' hk4 (by omega) (by omega) (by rw [List.length_drop]; omega)
        have hsplit : ((F comp).drop (F fed).length).take size =
            d' ++ ((F comp).drop (F (fed ++ rest.take n)).length).take (size - d'.length) := by
          rw [← hkall, ← List.drop_drop, hdlen, hd']
          rw [← List.take_add]
          congr 1; omega
        refine ⟨st', ?_, ?_⟩
        · rw [h1, hsplit, List.take_of_length_le (by omega), List.append_assoc]
        · rw [hsplit, List.length_append, hdlen]
          rw [hdlen, ← hkall] at h2
          rw [← hkall]
          simpa [Nat.add_assoc] using h2
      · rw [if_neg hlt]
        have htake : d'.take size = ((F comp).drop (F fed).length).take size := by
          rw [hd', List.take_take]; congr 1; omega
        refine ⟨_, by rw [htake], fed ++ rest.take n, rest.drop n, (F fed).length + k, hc', rfl, hk4, by omega, ?_, ?_⟩
        · rw [List.length_take]; omega
        · simp only
          have hl : (((F comp).drop (F fed).length).take size).length = size := by
            rw [← htake, List.length_take]; omega
          rw [hl, hd', List.drop_take, List.drop_drop, List.drop_take]
          congr 1; omega

theorem read_ok {σ : Type} (D : Decompressor σ) (F : Bytes → Bytes) (Rel : σ → Bytes → Nat → Prop)
    (hD : Decompresses D F Rel) (comp : Bytes) (hne : comp ≠ []) (s : InputStream) (hs : s.read = stringRead comp)
    (hsz : s.size = some (8 * comp.length)) (fuel : Nat) (hf : comp.length < fuel) (st : CState σ) (pos : Nat)
    (h : CInv F Rel comp st pos) (n : Nat) :
    ∃ st', SubFile.read D s fuel st n = .ok (st', ((F comp).drop pos).take n) ∧
      CInv F Rel comp st' (pos + (((F comp).drop pos).take n).length) := by
  obtain ⟨fed, rest, e, hc, hoff, hrel, he, hpe, hbuf⟩ := h
  have hpre : F fed <+: F comp := by rw [hc]; exact hD.mono _ _
  have hle : (F fed).length ≤ (F comp).length := hpre.length_le
  have hbl : st.buffer.length = e - pos := by
    rw [hbuf, List.length_drop, List.length_take]; omega
  have hb2 : st.buffer = ((F comp).drop pos).take (e - pos) := by rw [hbuf, List.drop_take]
  unfold SubFile.read
  by_cases hn : n ≤ st.buffer.length
  · simp only
    rw [if_pos hn]
    have htake : st.buffer.take n = ((F comp).drop pos).take n := by
      rw [hb2, List.take_take]; congr 1; omega
    have hl : (((F comp).drop pos).take n).length = n := by rw [← htake, List.length_take]; omega
    refine ⟨⟨st.dec, st.offset, st.buffer.drop n⟩, by rw [htake], fed, rest, e, hc, hoff, hrel, he, by omega, ?_⟩
    simp only
    rw [hl, hbuf, List.drop_drop]
  · rw [if_neg hn]
    obtain ⟨k, hk1, hk2, hk3, hk4⟩ := hD.next st.dec fed e (n - st.buffer.length) hrel he
    rcases hcall : D.call st.dec (n - st.buffer.length) none with ⟨dec', d'⟩
    rw [hcall] at hk1 hk4
    simp only at hk1 hk4
    simp only [hcall]
    have hdlen : d'.length = k := by rw [hk1, List.length_take, List.length_drop]; omega
    have hd' : d' = ((F comp).drop e).take k := by
      rw [hk1]; exact prefix_window hpre _ _ (by omega)
    have hsplit0 : ∀ m, e - pos ≤ m → ((F comp).drop pos).take m =
        st.buffer ++ ((F comp).drop e).take (m - (e - pos)) := by
      intro m hm
      have hdd : (F comp).drop e = ((F comp).drop pos).drop (e - pos) := by rw [List.drop_drop]; congr 1; omega
      rw [hb2, hdd, ← List.take_add]
      congr 1; omega
    by_cases hlt : d'.length < n - st.buffer.length
    · rw [if_pos hlt]
      have hkall : e + k = (F fed).length := by omega
      rw [hkall] at hk4
      have hrl : rest.length < fuel := by
        have : comp.length = fed.length + rest.length := by rw [hc, List.length_append]
        omega
      obtain ⟨st', h1, h2⟩ := readLoop_ok D F Rel hD comp hne s hs hsz fuel dec' fed rest
        (n - st.buffer.length - d'.length) d' (n - st.buffer.length) (st.buffer ++ d'.take (n - st.buffer.length))
        hc hk4 (by omega) (by omega) hrl
      have hsplit : ((F comp).drop pos).take n =
          st.buffer ++ (d' ++ ((F comp).drop (F fed).length).take (n - st.buffer.length - d'.length)) := by
        rw [hsplit0 n (by omega), ← hkall, ← List.drop_drop, hdlen, hd', hbl]
        rw [← List.take_add]
        congr 2; omega
      refine ⟨st', ?_, ?_⟩
      · rw [hoff, h1, hsplit, List.take_of_length_le (by omega)]; simp
      · rw [hsplit, List.length_append, List.length_append, hdlen, hbl]
        rw [hdlen, hbl] at h2
        have hx : ∀ z, pos + ((e - pos) + (k + z)) = (F fed).length + z := by intro z; omega
        rw [hx]; exact h2
    · rw [if_neg hlt]
      have htake : d'.take (n - st.buffer.length) = ((F comp).drop e).take (n - (e - pos)) := by
        rw [hd', List.take_take, hbl]; congr 1; omega
      have hdl2 : (d'.take (n - st.buffer.length)).length = n - (e - pos) := by
        rw [List.length_take]; omega
      refine ⟨⟨dec', st.offset, d'.drop (n - st.buffer.length)⟩, by rw [htake, hsplit0 n (by omega)], fed, rest, e + k, hc, hoff, hk4, by omega, ?_, ?_⟩
      · rw [List.length_take]; omega
      · simp only
        have hl : (((F comp).drop pos).take n).length = n := by
          rw [hsplit0 n (by omega), List.length_append, ← htake, hdl2, hbl]; omega
        rw [hl, hd', hbl, List.drop_take, List.drop_drop, List.drop_take]
        have a1 : e + (n - (e - pos)) = pos + n := by omega
        have a2 : k - (n - (e - pos)) = e + k - (pos + n) := by omega
        rw [a1, a2]

/-- C41: whatever the read sizes, successive reads of a decompressing sub-stream
over the compressed bytes `comp` end, never fail, and deliver consecutive pieces
of the plain text `F comp`, each of exactly the asked size until the plain text
ends.  The number of bytes the decompressor hands out per call is arbitrary. -/
theorem C41_reads_are_consecutive {σ : Type} (D : Decompressor σ) (F : Bytes → Bytes) (Rel : σ → Bytes → Nat → Prop)
    (hD : Decompresses D F Rel) (dec : σ) (h0 : Rel dec [] 0)
    (comp : Bytes) (s : InputStream) (hs : stringInputStream comp = .ok s)
    (fuel : Nat) (hf : comp.length < fuel) (sizes : List Nat) :
    readMany D s fuel (CState.init dec) sizes = .ok (slices (F comp) 0 sizes) := by
  have hne : comp ≠ [] := by
    rintro rfl; simp [stringInputStream] at hs
  have hcpos : 0 < comp.length := List.length_pos_iff.mpr hne
  have hs1 : s = { read := stringRead comp, size := some (8 * comp.length) } := by
    unfold stringInputStream at hs
    rw [if_neg (by omega)] at hs
    exact (Except.ok.inj hs).symm
  have main : ∀ (st : CState σ) (pos : Nat), CInv F Rel comp st pos →
      readMany D s fuel st sizes = .ok (slices (F comp) pos sizes) := by
    induction sizes with
    | nil => intro st pos h; rfl
    | cons n ns ih =>
      intro st pos h
      obtain ⟨st', h1, h2⟩ := read_ok D F Rel hD comp hne s (by rw [hs1]) (by rw [hs1]) fuel hf st pos h n
      simp only [readMany, h1, slices, ih st' _ h2]
  exact main _ 0 ⟨[], comp, 0, rfl, rfl, h0, Nat.zero_le _, Nat.le_refl _, rfl⟩

/-- Consequence: the delivered data joined is a prefix of the plain text, and all
of it once enough was asked. -/
theorem C41_slices_join (g : Bytes) (pos : Nat) (sizes : List Nat) :
    (slices g pos sizes).flatten = (g.drop pos).take sizes.sum := by
  induction sizes generalizing pos with
  | nil => simp [slices]
  | cons n ns ih =>
    simp only [slices, List.flatten_cons, ih, List.sum_cons]
    rw [List.length_take, List.length_drop]
    rw [List.take_add, List.drop_drop]
    rcases Nat.lt_or_ge (g.length - pos) n with h | h
    · rw [Nat.min_eq_right (by omega)]
      rw [List.drop_eq_nil_of_le (by omega : g.length ≤ pos + (g.length - pos)),
        List.drop_eq_nil_of_le (by omega : g.length ≤ pos + n)]
    · rw [Nat.min_eq_left h]

/-! ### Two decompressors that meet the contract -/

/-- A decompressor that doubles every byte and obeys the size limit, keeping the
rest for later calls (like a zlib object). -/
def doubler : Decompressor (Bytes × Nat) where
  call := fun (fed, e) size data =>
    let fed := fed ++ data.getD []
    let out := fed.flatMap (fun b => [b, b])
    ((fed, e + ((out.drop e).take size).length), (out.drop e).take size)

theorem doubler_decompresses : Decompresses doubler (fun x => x.flatMap (fun b => [b, b]))
    (fun s fed e => s = (fed, e)) where
  mono x y := by simp
  next s fed e size hs he := by
    subst hs
    refine ⟨min size (((fed.flatMap (fun b => [b, b]))).length - e), ?_, Nat.le_refl _, by omega, ?_⟩
    · simp only [doubler, Option.getD_none, List.append_nil]
      rw [List.take_eq_take_iff]; simp
    · simp [doubler]
  feed s fed size c hs := by
    subst hs
    refine ⟨min size (((fed ++ c).flatMap (fun b => [b, b])).length - (fed.flatMap (fun b => [b, b])).length),
      ?_, Nat.le_refl _, by omega, ?_⟩
    · simp only [doubler, Option.getD_some]
      rw [List.take_eq_take_iff]; simp
    · simp [doubler]

/-- A decompressor that ignores the size limit (like the bz2 one). -/
def greedy : Decompressor Unit where
  call := fun _ _ data => ((), (data.getD []).flatMap (fun b => [b, b, b]))

theorem greedy_decompresses : Decompresses greedy (fun x => x.flatMap (fun b => [b, b, b]))
    (fun _ fed e => e = (fed.flatMap (fun b => [b, b, b])).length) where
  mono x y := by simp
  next s fed e size hs he := ⟨0, by simp [greedy], by subst hs; omega, by omega, hs⟩
  feed s fed size c _ := by
    refine ⟨_, ?_, Nat.min_le_right _ _, Nat.le_refl _, ?_⟩
    · simp [greedy]
      rw [List.take_of_length_le]
      simp
    · simp

example : readMany doubler { read := stringRead [1, 2, 3], size := some 24 } 4 (CState.init ([], 0)) [1, 2, 0, 2, 9, 4] =
    .ok [[1], [1, 2], [], [2, 3], [3], []] := by decide +kernel

example : readMany greedy { read := stringRead [1, 2, 3], size := some 24 } 4 (CState.init ()) [1, 2, 0, 2, 9, 4] =
    .ok [[1], [1, 1], [], [2, 2], [2, 3, 3, 3], []] := by decide +kernel

end Props

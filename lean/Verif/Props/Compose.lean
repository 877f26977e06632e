import Verif.Stream.ComposeLemmas
import Verif.Props.InputStream

/-!
# Property C43: composed streams
-/

set_option linter.unusedVariables false

namespace Props
open Hachoir Hachoir.Stream Spec

/-- `readBits` depends on the one `read` it makes (BIG and LITTLE endian). -/
theorem readBits_congr (s t : InputStream) (a : Int) (n : Nat) (h : s.read a n = t.read a n) (e : Endian)
    (he : e ≠ .middle) : readBits s a n e = readBits t a n e := by
  unfold readBits
  cases e with
  | middle => exact absurd rfl he
  | big => simp only [h]
  | little => simp only [h]

/-- C43: `ConcatStream` over two in-memory streams is a stream over the
concatenation of their bytes: same size, same bits at every address, error
exactly when the joined data is left. -/
theorem C43_concat (d0 d1 : Bytes) (s0 s1 : InputStream) (h0 : stringInputStream d0 = .ok s0)
    (h1 : stringInputStream d1 = .ok s1) :
    ∃ c, concatStream [s0, s1] = .ok c ∧ c.size = some (8 * (d0 ++ d1).length) ∧
      ∀ a n : Nat, 0 < n →
        (a + n ≤ 8 * (d0 ++ d1).length →
          readBits c a n .big = .ok (ofBitsMSB (((bitsMSB (d0 ++ d1)).drop a).take n)) ∧
          readBits c a n .little = .ok (ofBitsLSB (((bitsLSB (d0 ++ d1)).drop a).take n))) ∧
        (8 * (d0 ++ d1).length < a + n →
          readBits c a n .big = .error .readStream ∧ readBits c a n .little = .error .readStream) := by
  obtain ⟨r0, z0, p0⟩ := stringInputStream_ok d0 s0 h0
  obtain ⟨r1, z1, p1⟩ := stringInputStream_ok d1 s1 h1
  refine ⟨{ read := concatRead s0 (8 * d0.length) s1, size := some (8 * d0.length + 8 * d1.length) }, ?_, ?_, ?_⟩
  · simp only [concatStream, z0, z1]
    rw [if_neg (by omega)]
  · simp only [List.length_append]; congr 1; omega
  · intro a n hn
    obtain ⟨t, ht⟩ : ∃ t : InputStream, t = { read := stringRead (d0 ++ d1), size := none } := ⟨_, rfl⟩
    have hr : ∀ e, e ≠ .middle → readBits
        { read := concatRead s0 (8 * d0.length) s1, size := some (8 * d0.length + 8 * d1.length) } a n e =
        readBits t a n e := by
      intro e he
      apply readBits_congr _ _ _ _ _ e he
      rw [ht]
      exact concatRead_eq d0 d1 s0 s1 r0 r1 a n hn
    have htr : t.read = stringRead (d0 ++ d1) := by rw [ht]
    rw [hr .big (by simp), hr .little (by simp)]
    constructor
    · intro h
      exact ⟨readBits_string_big t _ htr a n h, readBits_string_little t _ htr a n h⟩
    · intro h
      have he : t.read a n = .error .readStream := by rw [htr]; exact stringRead_err _ a n h (Or.inl hn)
      exact ⟨readBits_err_of_read t a n .big (by simp) _ he, readBits_err_of_read t a n .little (by simp) _ he⟩

example : ∃ s, stringInputStream [0x12, 0x34] = .ok s := ⟨_, rfl⟩
example : readBits ⟨concatRead ⟨stringRead [0x12], some 8⟩ 8 ⟨stringRead [0x34, 0x56], some 16⟩, none⟩ 4 12 .big = .ok 0x234 := by decide

/-- C43 fails for a first stream whose size is no multiple of 8 bits: the first
four bits of `AB` followed by `CD` should read `ACD`. -/
theorem C43_concat_bit_size_wrong :
    ∃ s0 s1 c sub, stringInputStream [0xAB] = .ok s0 ∧ stringInputStream [0xCD] = .ok s1 ∧
      subStream s0 0 (some 4) = .ok sub ∧ concatStream [sub, s1] = .ok c ∧
      c.size = some 12 ∧ readBits c 0 12 .big = .ok 0xABC := by
  refine ⟨_, _, _, _, rfl, rfl, rfl, rfl, rfl, ?_⟩
  decide

/-! ### Fragmented streams -/

/-- A history of reads on a fragmented stream: final state. -/
def fragRun (parent : InputStream) (psize : Nat) : FragState → List (Nat × Nat) → FragState
  | st, [] => st
  | st, (a, n) :: rest => fragRun parent psize (fragRead parent psize st a n).1 rest

/-- What the stream in state `st` answers to the next read. -/
def fragView (parent : InputStream) (psize : Nat) (st : FragState) : InputStream :=
  { read := fun a n => (fragRead parent psize st a.toNat n).2, size := st.size }

theorem fragRun_inv (P : Bytes) (parent : InputStream) (hp : parent.read = stringRead P)
    (all : List (Option (Nat × Nat))) (hne : fragContent P all ≠ []) (hist : List (Nat × Nat)) :
    ∀ (st : FragState), (∃ init last rest, FInv P all st init last rest) →
      ∃ init last rest, FInv P all (fragRun parent (8 * P.length) st hist) init last rest := by
  induction hist with
  | nil => intro st h; exact h
  | cons x hist ih =>
    obtain ⟨a, n⟩ := x
    rintro st ⟨init, last, rest, h⟩
    rw [fragRun]
    apply ih
    by_cases hn : 0 < n
    · exact (fragRead_ok P parent hp all hne st init last rest h a n hn).1
    · have : n = 0 := by omega
      subst this
      simp only [fragRead, if_true]
      exact ⟨init, last, rest, h⟩

/-- C43: a stream made of fragments of an in-memory stream (fragments on byte
boundaries, discovered lazily) reads like the concatenation of the fragments,
whatever was read before: inside the joined data the right bits, beyond its end
an error. -/
theorem C43_fragmented_partial (P : Bytes) (parent : InputStream) (hpar : stringInputStream P = .ok parent)
    (first : Nat × Nat) (rest : List (Option (Nat × Nat)))
    (hne : fragContent P (some first :: rest) ≠ [])
    (hfirst : first.1 + first.2 ≤ P.length ∨ rest ≠ []) :
    ∃ st0, FragState.init (8 * first.1, 8 * first.2)
        (rest.map (fun o => o.map (fun f => (8 * f.1, 8 * f.2)))) = .ok st0 ∧
      ∀ (hist : List (Nat × Nat)) (a n : Nat), 0 < n →
        (a + n ≤ 8 * (fragContent P (some first :: rest)).length →
          readBits (fragView parent (8 * P.length) (fragRun parent (8 * P.length) st0 hist)) a n .big =
            .ok (ofBitsMSB (((bitsMSB (fragContent P (some first :: rest))).drop a).take n)) ∧
          readBits (fragView parent (8 * P.length) (fragRun parent (8 * P.length) st0 hist)) a n .little =
            .ok (ofBitsLSB (((bitsLSB (fragContent P (some first :: rest))).drop a).take n))) ∧
        (8 * (fragContent P (some first :: rest)).length < a + n →
          readBits (fragView parent (8 * P.length) (fragRun parent (8 * P.length) st0 hist)) a n .big =
            .error .readStream ∧
          readBits (fragView parent (8 * P.length) (fragRun parent (8 * P.length) st0 hist)) a n .little =
            .error .readStream) := by
  obtain ⟨hp, -, -⟩ := stringInputStream_ok P parent hpar
  obtain ⟨st0, hi, hinv⟩ := FragState_init_ok P first rest hne hfirst
  refine ⟨st0, hi, ?_⟩
  intro hist a n hn
  obtain ⟨init, last, rest', h⟩ := fragRun_inv P parent hp _ hne hist st0 ⟨_, _, _, hinv⟩
  obtain ⟨st, hst⟩ : ∃ st, fragRun parent (8 * P.length) st0 hist = st := ⟨_, rfl⟩
  rw [hst] at h ⊢
  obtain ⟨-, h2, h3⟩ := fragRead_ok P parent hp _ hne st init last rest' h a n hn
  constructor
  · intro hin
    have hr : ∀ e, e ≠ .middle → readBits (fragView parent (8 * P.length) st) a n e =
        readBits { read := stringRead (fragContent P (some first :: rest)), size := none } a n e := by
      intro e he
      apply readBits_congr _ _ _ _ _ e he
      show (fragRead parent (8 * P.length) st (a : Int).toNat n).2 = _
      rw [Int.toNat_natCast, h2 hin]
      exact (stringRead_ok _ a n hin).symm
    rw [hr .big (by simp), hr .little (by simp)]
    exact ⟨readBits_string_big _ _ rfl a n hin, readBits_string_little _ _ rfl a n hin⟩
  · intro hout
    have hr : ∀ e, e ≠ .middle → readBits (fragView parent (8 * P.length) st) a n e = .error .readStream := by
      intro e he
      have hread : (fragView parent (8 * P.length) st).read a n = (fragRead parent (8 * P.length) st a n).2 := by
        show (fragRead parent (8 * P.length) st (a : Int).toNat n).2 = _
        rw [Int.toNat_natCast]
      rcases h3 hout with h4 | ⟨sh, d, h4⟩
      · exact readBits_err_of_read _ a n e he _ (by rw [hread, h4])
      · unfold readBits
        cases e with
        | middle => exact absurd rfl he
        | big => simp only [hread, h4]; simp
        | little => simp only [hread, h4]; simp
    exact ⟨hr .big (by simp), hr .little (by simp)⟩

/-- Three fragments, the last one cut by the end of the parent. -/
example : fragContent [0, 1, 2, 3, 4, 5, 6, 7] [some (4, 2), some (1, 2), some (6, 5), some (0, 1)] =
    [4, 5, 1, 2, 6, 7] := by decide
example : readBits (fragView { read := stringRead [0, 1, 2, 3, 4, 5, 6, 7], size := some 64 } 64
    ⟨[(0, 32, 16)], [some (8, 16), some (48, 40), some (0, 8)], 0, none⟩) 8 24 .big = .ok 0x050102 := by decide +kernel

/-- C43 fails for fragments off the byte boundaries: here two nibbles; reading
both of them is an `AssertionError`. -/
theorem C43_fragments_unaligned :
    (fragRead { read := stringRead [0xAB, 0xCD], size := some 16 } 16
      ⟨[(0, 0, 4)], [some (12, 4)], 0, none⟩ 0 8).2 = .error .assertion := by decide +kernel

/-- C43 fails for a single fragment that leaves its parent: the size of the
stream is the declared one, not what the parent has. -/
theorem C43_single_fragment_size :
    ∃ st, FragState.init (8, 800) [] = .ok st ∧ st.size = some 800 ∧
      (fragRead { read := stringRead [0xAB, 0xCD], size := some 16 } 16 st 0 800).2 = .error .readStream := by
  refine ⟨_, rfl, rfl, ?_⟩
  decide +kernel

end Props

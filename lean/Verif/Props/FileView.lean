import Verif.Stream.FileView
import Verif.Props.Pipe

/-!
# Property C44: the file object of a stream
-/

set_option linter.unusedVariables false

namespace Props
open Hachoir Hachoir.Stream

/-- Specification: one operation on a file with contents `data` at position
`pos`; `none` when the operation leaves the file protocol (a seek before the
start, a negative read size). -/
def absFile (data : Bytes) (pos : Nat) : FileOp → Option (Nat × FileOut)
  | .seek p w =>
    let target : Option Int := if w = 0 then some p else if w = 1 then some (pos + p)
      else if w = 2 then some (data.length + p) else none
    match target with
    | none => some (pos, .err .value)
    | some t => if 0 ≤ t then some (t.toNat, .done) else none
  | .tell => some (pos, .pos pos)
  | .read none => some (pos + (data.drop pos).length, .data (data.drop pos))
  | .read (some n) =>
    if 0 ≤ n then some (pos + ((data.drop pos).take n.toNat).length, .data ((data.drop pos).take n.toNat)) else none

/-- Specification: the observations of a history, if it stays in the protocol. -/
def absRun (data : Bytes) : Nat → List FileOp → Option (List FileOut)
  | _, [] => some []
  | pos, op :: ops =>
    match absFile data pos op with
    | none => none
    | some (pos', out) => (absRun data pos' ops).map (out :: ·)

/-- A stream of known size that holds exactly the bytes `data`. -/
def Holds (s : InputStream) (data : Bytes) : Prop :=
  s.size = some (8 * data.length) ∧ data ≠ [] ∧
  ∀ a n : Nat, 0 < n → a + n ≤ data.length →
    s.read (8 * (a : Int)) (8 * n) = .ok (0, (data.drop a).take n, false)

theorem holds_string (data : Bytes) (s : InputStream) (h : stringInputStream data = .ok s) : Holds s data := by
  unfold stringInputStream at h
  split at h
  · cases h
  · rename_i hne
    cases h
    refine ⟨rfl, by rintro rfl; simp at hne, ?_⟩
    intro a n hn ha
    have := stringRead_ok data (8 * a) (8 * n) (by omega)
    have e1 : 8 * a / 8 = a := by omega
    have e2 : 8 * a % 8 = 0 := by omega
    have e3 : (8 * n + 0 + 7) / 8 = n := by omega
    rw [e1, e2, e3] at this
    exact this

theorem holds_io (data : Bytes) (s : InputStream) (h : ioInputStream data = .ok s) : Holds s data := by
  unfold ioInputStream at h
  split at h
  · cases h
  · rename_i hne
    cases h
    refine ⟨rfl, by rintro rfl; simp at hne, ?_⟩
    intro a n hn ha
    have h0 : (8 * (a : Int)) = ((8 * a : Nat) : Int) := by omega
    have := stringRead_ok data (8 * a) (8 * n) (by omega)
    have e1 : 8 * a / 8 = a := by omega
    have e2 : 8 * a % 8 = 0 := by omega
    have e3 : (8 * n + 0 + 7) / 8 = n := by omega
    rw [e1, e2, e3] at this
    simp only [h0]
    rw [ioRead_nat data (8 * a) (8 * n) (by omega), this]

theorem holds_sub (data : Bytes) (s t : InputStream) (hs : Holds s data) (off len : Nat) (hl : 0 < len)
    (ho : off + len ≤ data.length) (h : subStream s (8 * off) (some (8 * len)) = .ok t) :
    Holds t ((data.drop off).take len) := by
  unfold subStream at h
  simp only at h
  rw [if_neg (by omega)] at h
  cases h
  have hlen : ((data.drop off).take len).length = len := by rw [List.length_take, List.length_drop]; omega
  refine ⟨?_, ?_, ?_⟩
  · simp only [hlen]
    congr 1
  · intro he; rw [he] at hlen; simp at hlen; omega
  · intro a n hn ha
    rw [hlen] at ha
    have h1 := hs.2.2 (off + a) n hn (by omega)
    have h0 : ((8 * off : Nat) : Int) + 8 * (a : Int) = 8 * ((off + a : Nat) : Int) := by omega
    simp only [h0, h1]
    rw [List.drop_take, List.take_take, List.drop_drop, Nat.min_eq_left (by omega)]

/-- State relation for a stream of known size: the position is the offset,
counted from the end if the last seek was. -/
def FRel (data : Bytes) (f : FileView Unit) (pos : Nat) : Prop :=
  (pos : Int) = if f.fromEnd then data.length + f.offset else f.offset

theorem tell_known (s : InputStream) (data : Bytes) (hs : Holds s data) (fuel : Nat) (hf : 0 < fuel)
    (f : FileView Unit) (pos : Nat) (h : FRel data f pos) :
    f.tell s.toS fuel = (⟨(), pos, false⟩, .ok (pos : Int)) := by
  obtain ⟨fuel, rfl⟩ : ∃ m, fuel = m + 1 := ⟨fuel - 1, by omega⟩
  unfold FileView.tell
  unfold FRel at h
  obtain ⟨u, off, fe⟩ := f
  cases fe with
  | false =>
    simp only [Bool.false_eq_true, if_false] at h ⊢
    rw [h]
  | true =>
    simp only [if_true] at h ⊢
    simp only [tellLoop, InputStream.toS, hs.1, Option.getD_some]
    have : off + ((8 * data.length / 8 : Nat) : Int) = (pos : Int) := by omega
    rw [this]

theorem step_known (s : InputStream) (data : Bytes) (hs : Holds s data) (fuel : Nat) (hf : 0 < fuel)
    (f : FileView Unit) (pos : Nat) (h : FRel data f pos) (op : FileOp) (pos' : Nat) (out : FileOut)
    (ha : absFile data pos op = some (pos', out)) :
    FRel data (f.step s.toS fuel op).1 pos' ∧ (f.step s.toS fuel op).2 = out := by
  have hlen : 0 < data.length := List.length_pos_iff.mpr hs.2.1
  cases op with
  | tell =>
    simp only [absFile, Option.some.injEq, Prod.mk.injEq] at ha
    obtain ⟨rfl, rfl⟩ := ha
    simp only [FileView.step, tell_known s data hs fuel hf f pos h]
    exact ⟨by simp [FRel], trivial⟩
  | seek p w =>
    simp only [absFile] at ha
    simp only [FileView.step, FileView.seek]
    unfold FRel at h ⊢
    by_cases h0 : w = 0
    · simp only [h0, if_true] at ha ⊢
      split at ha
      · cases ha; simp; omega
      · cases ha
    · by_cases h1 : w = 1
      · simp only [h1, if_true, show ¬ ((1 : Int) = 0) by omega, if_false] at ha ⊢
        split at ha
        · cases ha
          obtain ⟨u, off, fe⟩ := f
          cases fe <;> simp at h ⊢ <;> omega
        · cases ha
      · by_cases h2 : w = 2
        · simp only [h2, if_true, show ¬ ((2 : Int) = 0) by omega, show ¬ ((2 : Int) = 1) by omega, if_false] at ha ⊢
          split at ha
          · cases ha; simp; omega
          · cases ha
        · simp only [h0, h1, h2, if_false] at ha ⊢
          cases ha
          exact ⟨h, rfl⟩
  | read n =>
    have hfs : f.size s.toS = some data.length := by
      simp [FileView.size, InputStream.toS, hs.1]
    simp only [FileView.step, FileView.read, hfs]
    rw [if_pos (Or.inl ⟨rfl, fun hc => by injection hc; omega⟩)]
    rw [tell_known s data hs fuel hf f pos h]
    have hfs2 : (⟨(), (pos : Int), false⟩ : FileView Unit).size s.toS = some data.length := by
      simp [FileView.size, InputStream.toS, hs.1]
    simp only [hfs2]
    -- reading m bytes, m positive
    have hread : ∀ m : Nat, 0 < m → pos + m ≤ data.length →
        innerRead s.toS () (pos : Int) m = ((), .ok ((data.drop pos).take m)) := by
      intro m hm hp
      have := hs.2.2 pos m hm hp
      simp [innerRead, InputStream.toS, this]
    cases n with
    | none =>
      simp only [absFile, Option.some.injEq, Prod.mk.injEq] at ha
      obtain ⟨rfl, rfl⟩ := ha
      dsimp only
      by_cases hp : data.length ≤ pos
      · rw [if_pos (by omega), List.drop_eq_nil_of_le hp]
        exact ⟨by simp [FRel], rfl⟩
      · rw [if_neg (by omega)]
        have e : ((data.length : Int) - (pos : Int)).toNat = data.length - pos := by omega
        have htk : (data.drop pos).take (data.length - pos) = data.drop pos := by
          rw [List.take_of_length_le]; simp
        rw [e, hread _ (by omega) (by omega), htk]
        exact ⟨by simp [FRel], rfl⟩
    | some n =>
      simp only [absFile] at ha
      split at ha
      · rename_i hn
        simp only [Option.some.injEq, Prod.mk.injEq] at ha
        obtain ⟨rfl, rfl⟩ := ha
        simp only
        by_cases hbig : (data.length : Int) < pos + n
        · rw [if_pos hbig]
          simp only
          by_cases hp : data.length ≤ pos
          · rw [if_pos (by omega), List.drop_eq_nil_of_le hp]
            exact ⟨by simp [FRel], by simp⟩
          · rw [if_neg (by omega)]
            have e : ((data.length : Int) - (pos : Int)).toNat = data.length - pos := by omega
            have htk : (data.drop pos).take (data.length - pos) = (data.drop pos).take n.toNat := by
              rw [List.take_of_length_le (by simp), List.take_of_length_le (by simp; omega)]
            rw [e, hread _ (by omega) (by omega), htk]
            exact ⟨by simp [FRel], rfl⟩
        · rw [if_neg hbig]
          simp only
          by_cases hz : n ≤ 0
          · rw [if_pos hz]
            have : n.toNat = 0 := by omega
            rw [this]
            exact ⟨by simp [FRel], by simp⟩
          · rw [if_neg hz, hread _ (by omega) (by omega)]
            exact ⟨by simp [FRel], rfl⟩
      · cases ha

/-- C44: over any stream of known size (in-memory, file, byte-aligned sub-stream
of such) the file object behaves like a file with the same contents, for every
history that stays in the file protocol. -/
theorem C44_known_size_partial (s : InputStream) (data : Bytes) (hs : Holds s data) (fuel : Nat) (hf : 0 < fuel)
    (ops : List FileOp) (outs : List FileOut) (ha : absRun data 0 ops = some outs) :
    ∃ f, FileView.init s.toS () = .ok f ∧ f.run s.toS fuel ops = outs := by
  refine ⟨⟨(), 0, false⟩, ?_, ?_⟩
  · have h8 : (8 * data.length) % 8 = 0 := by omega
    simp [FileView.init, InputStream.toS, hs.1]
  · have main : ∀ (ops : List FileOp) (f : FileView Unit) (pos : Nat) (outs : List FileOut), FRel data f pos →
        absRun data pos ops = some outs → f.run s.toS fuel ops = outs := by
      intro ops
      induction ops with
      | nil => intro f pos outs _ h; simp [absRun] at h; subst h; rfl
      | cons op ops ih =>
        intro f pos outs h hr
        simp only [absRun] at hr
        cases hab : absFile data pos op with
        | none => rw [hab] at hr; cases hr
        | some po =>
          obtain ⟨pos', out⟩ := po
          rw [hab] at hr
          simp only [Option.map_eq_some_iff] at hr
          obtain ⟨outs', ho1, ho2⟩ := hr
          obtain ⟨h1, h2⟩ := step_known s data hs fuel hf f pos h op pos' out hab
          subst ho2
          simp only [FileView.run, h2, List.cons.injEq, true_and]
          exact ih _ _ _ h1 ho1
    exact main ops ⟨(), 0, false⟩ 0 outs (by simp [FRel]) ha

/-- A history on a file of six bytes that stays in the protocol. -/
def fileOpsEx : List FileOp :=
  [.read (some 2), .tell, .seek (-3) 2, .tell, .read (some 10), .read none, .seek 1 0, .seek 1 1, .read none,
    .seek 3 7, .seek 10 0, .read (some 1), .tell]

example : Holds { read := stringRead [1, 2, 3, 4, 5, 6], size := some 48 } [1, 2, 3, 4, 5, 6] :=
  holds_string _ _ rfl
example : absRun [1, 2, 3, 4, 5, 6] 0 fileOpsEx =
    some [.data [1, 2], .pos 2, .done, .pos 3, .data [4, 5, 6], .data [], .done, .done, .data [3, 4, 5, 6],
      .err .value, .done, .data [], .pos 10] := by decide

/-- C44 fails for seeks before the start: the seek is accepted, and a read then
returns bytes counted from the end (in-memory stream) ... -/
theorem C44_negative_seek_accepted :
    (⟨(), 0, false⟩ : FileView Unit).run
      (InputStream.toS { read := stringRead [1, 2, 3, 4, 5, 6], size := some 48 }) 5
      [.seek (-2) 0, .read (some 1), .tell] = [.done, .data [5], .pos (-1)] := by decide

/-- ... and `read(-1)`, which reads everything in the file protocol, reads
nothing. -/
theorem C44_read_minus_one :
    (⟨(), 0, false⟩ : FileView Unit).run
      (InputStream.toS { read := stringRead [1, 2, 3, 4, 5, 6], size := some 48 }) 5
      [.read (some (-1)), .read none] = [.data [], .data [1, 2, 3, 4, 5, 6]] := by decide

/-! ### Streams of unknown size -/

/-- Operations the pipe theorem does not speak about: seeks from the end, and
`read()` behind the end. -/
def outsidePipe (data : Bytes) (pos : Nat) : FileOp → Bool
  | .seek _ w => decide (w = 2)
  | .read none => decide (data.length < pos)
  | _ => false

/-- Histories the pipe theorem speaks about: inside the protocol, no seek from
the end, no `read()` behind the end. -/
def absRunPipe (data : Bytes) : Nat → List FileOp → Option (List FileOut)
  | _, [] => some []
  | pos, op :: ops =>
    if outsidePipe data pos op then none
    else
    match absFile data pos op with
    | none => none
    | some (pos', out) => (absRunPipe data pos' ops).map (out :: ·)

/-- The observations are those of the file until an access is refused (the data
was discarded by the pipe). -/
def AgreesUntilRefused : List FileOut → List FileOut → Prop
  | [], [] => True
  | e :: es, o :: os => o = .err .inputStream ∨ (o = e ∧ AgreesUntilRefused es os)
  | _, _ => False

/-- The bytes of an aligned read result. -/
def alignedBytes : ReadResult → Except PyErr Bytes
  | .error e => .error e
  | .ok (shift, data, _) => if shift ≠ 0 then .error .inputStream else .ok data

theorem innerRead_pipe (k nbMin : Nat) (hnb : 0 < nbMin) (src : Bytes) (hsrc : src ≠ []) (s : PipeStream)
    (h : SInv k nbMin src s) (pos m : Nat) (hm : 0 < m) :
    SInv k nbMin src (innerRead (pipeS k nbMin) s pos m).1 ∧
    (s.size.isSome → (innerRead (pipeS k nbMin) s pos m).1.size = s.size) ∧
    ((innerRead (pipeS k nbMin) s pos m).2 = .error .inputStream ∨
     ((pos + m ≤ src.length ∨ s.size = none) ∧
      (innerRead (pipeS k nbMin) s pos m).2 = .ok ((src.drop pos).take m) ∧
      (pos + m ≤ src.length ∨ (innerRead (pipeS k nbMin) s pos m).1.size.isSome)) ∨
     (s.size.isSome ∧ src.length < pos + m)) := by
  have hsp := pipeStreamRead_spec k nbMin hnb src hsrc s h (8 * pos) (8 * m) (by omega)
  have e1 : 8 * pos / 8 = pos := by omega
  have e2 : 8 * pos % 8 = 0 := by omega
  have e3 : (8 * m + 0 + 7) / 8 = m := by omega
  rw [e1, e2, e3] at hsp
  have hcast : (8 * (pos : Int)) = ((8 * pos : Nat) : Int) := by omega
  have hlen : ((src.drop pos).take m).length = min m (src.length - pos) := by simp
  rcases hr : pipeStreamRead k nbMin s ((8 * pos : Nat) : Int) (8 * m) with ⟨s', r⟩
  rw [hr] at hsp
  obtain ⟨g1, g2, g3, g4, g5⟩ := hsp
  have key : innerRead (pipeS k nbMin) s pos m = (s', alignedBytes r) := by
    unfold innerRead alignedBytes
    simp only [pipeS, hcast, hr]
    cases r with
    | error e => rfl
    | ok x =>
      obtain ⟨a, b, c⟩ := x
      dsimp only
      split <;> rfl
  rw [key]
  refine ⟨g1, g2, ?_⟩
  simp only at g3 g4 g5
  by_cases hf : pos / 2 ^ k < s.pipe.first
  · left; rw [g3 hf]; rfl
  · by_cases hfull : pos + m ≤ src.length
    · right; left
      rw [g4 (by omega) (by rw [hlen]; omega)]
      exact ⟨Or.inl hfull, by simp [alignedBytes], Or.inl hfull⟩
    · obtain ⟨g6, g7⟩ := g5 (by omega) (by rw [hlen]; omega)
      cases hs : s.size with
      | some z => right; right; exact ⟨rfl, by omega⟩
      | none =>
        right; left
        rw [g7, hs]
        exact ⟨Or.inr rfl, by simp [alignedBytes], Or.inr g6⟩

theorem SInv_size {k nbMin : Nat} {src : Bytes} {s : PipeStream} (h : SInv k nbMin src s) :
    s.size = none ∨ s.size = some (8 * src.length) := by
  rw [h.2]; split <;> simp

theorem readAllLoop_pipe (k nbMin : Nat) (hnb : 0 < nbMin) (src : Bytes) (hsrc : src ≠ []) (fuel : Nat) :
    ∀ (s : PipeStream) (pos m : Nat) (data : Bytes), SInv k nbMin src s → 0 < m → pos ≤ src.length →
      (s.size.isSome → pos + m = src.length) → src.length - pos + (if s.size.isSome then 0 else 1) < fuel →
      SInv k nbMin src (readAllLoop (pipeS k nbMin) (1 <<< 16) fuel s pos m data).1 ∧
      ((readAllLoop (pipeS k nbMin) (1 <<< 16) fuel s pos m data).2.2 = .error .inputStream ∨
       (readAllLoop (pipeS k nbMin) (1 <<< 16) fuel s pos m data).2 =
        ((src.length : Int), .ok (data ++ src.drop pos))) := by
  have hpos : 0 < src.length := List.length_pos_iff.mpr hsrc
  induction fuel with
  | zero => intro s pos m data _ _ _ _ hf; omega
  | succ fuel ih =>
    intro s pos m data hs hm hp hk hf
    obtain ⟨g1, g2, g3⟩ := innerRead_pipe k nbMin hnb src hsrc s hs pos m hm
    rcases hr : innerRead (pipeS k nbMin) s pos m with ⟨s', r⟩
    rw [hr] at g1 g2 g3
    simp only at g1 g2 g3
    rw [readAllLoop]
    rcases g3 with rfl | ⟨-, rfl, g4⟩ | ⟨g4, g5⟩
    · simp only [hr]
      exact ⟨g1, Or.inl trivial⟩
    · simp only [hr]
      have hlen : ((src.drop pos).take m).length = min m (src.length - pos) := by simp
      have hsz : (pipeS k nbMin).size s' = s'.size := rfl
      rw [hsz]
      rcases SInv_size g1 with hz | hz
      · rw [hz]
        simp only [Option.map_none]
        have hfull : pos + m ≤ src.length := by
          rcases g4 with g4 | g4
          · exact g4
          · rw [hz] at g4; cases g4
        have hsn : s.size = none := by
          cases hs0 : s.size with
          | none => rfl
          | some z => rw [hs0] at g2; have := g2 rfl; rw [hz] at this; cases this
        have hl : (((src.drop pos).take m).length : Int) = m := by rw [hlen]; omega
        rw [hl]
        have := ih s' (pos + m) m (data ++ (src.drop pos).take m) g1 hm hfull (by rw [hz]; simp)
          (by rw [hz]; rw [hsn] at hf; simp at hf ⊢; omega)
        simp only [Nat.cast_add] at this
        rw [List.append_assoc, ← List.drop_drop] at this
        have hj : (src.drop pos).take m ++ (src.drop pos).drop m = src.drop pos := List.take_append_drop _ _
        rw [hj] at this
        exact this
      · rw [hz]
        have hdiv : 8 * src.length / 8 = src.length := by omega
        simp only [Option.map_some, hdiv]
        rw [if_pos (by omega)]
        by_cases hfull : src.length ≤ pos + m
        · rw [if_pos (by rw [hlen]; omega)]
          refine ⟨g1, Or.inr ?_⟩
          have ht : (src.drop pos).take m = src.drop pos := List.take_of_length_le (by simp; omega)
          rw [ht]
          simp only [List.length_drop, Prod.mk.injEq, and_true]
          omega
        · have hsn : s.size = none := by
            cases hs0 : s.size with
            | none => rfl
            | some z => have := hk (by rw [hs0]; rfl); omega
          rw [if_neg (by rw [hlen]; omega), if_neg (by rw [hlen]; omega)]
          have hl : (((src.drop pos).take m).length : Int) = m := by rw [hlen]; omega
          rw [hl]
          have e : ((src.length : Int) - ((pos : Int) + m)).toNat = src.length - (pos + m) := by omega
          rw [e]
          have := ih s' (pos + m) (src.length - (pos + m)) (data ++ (src.drop pos).take m) g1 (by omega) (by omega)
            (by intro _; omega) (by rw [hz]; rw [hsn] at hf; simp at hf ⊢; omega)
          simp only [Nat.cast_add] at this
          rw [List.append_assoc, ← List.drop_drop] at this
          have hj : (src.drop pos).take m ++ (src.drop pos).drop m = src.drop pos := List.take_append_drop _ _
          rw [hj] at this
          exact this
    · exfalso
      have := hk g4; omega

theorem step_pipe (k nbMin : Nat) (hnb : 0 < nbMin) (src : Bytes) (hsrc : src ≠ []) (fuel : Nat)
    (hf : src.length + 1 < fuel) (s : PipeStream) (pos : Nat) (h : SInv k nbMin src s) (op : FileOp) (pos' : Nat)
    (out : FileOut) (hw : ∀ p, op ≠ .seek p 2) (hr : op = .read none → pos ≤ src.length)
    (ha : absFile src pos op = some (pos', out)) :
    ((⟨s, pos, false⟩ : FileView PipeStream).step (pipeS k nbMin) fuel op).2 = .err .inputStream ∨
    ∃ s', SInv k nbMin src s' ∧
      (⟨s, pos, false⟩ : FileView PipeStream).step (pipeS k nbMin) fuel op = (⟨s', pos', false⟩, out) := by
  have hpos : 0 < src.length := List.length_pos_iff.mpr hsrc
  cases op with
  | tell =>
    simp only [absFile, Option.some.injEq, Prod.mk.injEq] at ha
    obtain ⟨rfl, rfl⟩ := ha
    right
    exact ⟨s, h, rfl⟩
  | seek p w =>
    right
    have hw2 : w ≠ 2 := by rintro rfl; exact hw p rfl
    refine ⟨s, h, ?_⟩
    simp only [absFile] at ha
    simp only [FileView.step, FileView.seek]
    by_cases h0 : w = 0
    · simp only [h0, if_true] at ha ⊢
      split at ha
      · rename_i hp; cases ha; simp [Int.toNat_of_nonneg hp]
      · cases ha
    · by_cases h1 : w = 1
      · simp only [h1, if_true, show ¬ ((1 : Int) = 0) by omega, if_false] at ha ⊢
        split at ha
        · rename_i hp; cases ha; simp only [Int.toNat_of_nonneg hp]
        · cases ha
      · simp only [h0, h1, hw2, if_false] at ha ⊢
        cases ha
        rfl
  | read n =>
    -- reading m bytes at the position, m positive
    have hread : ∀ m : Nat, 0 < m → (s.size.isSome → pos + m ≤ src.length) →
        ((innerRead (pipeS k nbMin) s pos m).2 = .error .inputStream) ∨
        ∃ s', SInv k nbMin src s' ∧ innerRead (pipeS k nbMin) s pos m = (s', .ok ((src.drop pos).take m)) := by
      intro m hm hc
      obtain ⟨g1, g2, g3⟩ := innerRead_pipe k nbMin hnb src hsrc s h pos m hm
      rcases g3 with g | ⟨-, g, -⟩ | ⟨g4, g5⟩
      · exact Or.inl g
      · exact Or.inr ⟨_, g1, Prod.ext rfl g⟩
      · have := hc g4; omega
    have hsz : ∀ fe o, (⟨s, o, fe⟩ : FileView PipeStream).size (pipeS k nbMin) = s.size.map (fun z => z / 8) :=
      fun _ _ => rfl
    simp only [FileView.step, FileView.read, hsz, FileView.tell, Bool.false_eq_true, if_false]
    rcases SInv_size h with hz | hz
    · rw [hz]
      simp only [Option.map_none]
      cases n with
      | none =>
        simp only [absFile, Option.some.injEq, Prod.mk.injEq] at ha
        obtain ⟨rfl, rfl⟩ := ha
        rw [if_neg (by simp)]
        have hp := hr rfl
        obtain ⟨g1, g2⟩ := readAllLoop_pipe k nbMin hnb src hsrc fuel s pos (1 <<< 16) [] h (by decide) hp
          (by rw [hz]; simp) (by rw [hz]; simp; omega)
        rcases hl : readAllLoop (pipeS k nbMin) (1 <<< 16) fuel s pos (1 <<< 16) [] with ⟨s', o, r⟩
        rw [hl] at g1 g2
        simp only at g1 g2 ⊢
        rcases g2 with rfl | g2
        · exact Or.inl rfl
        · right
          cases g2
          refine ⟨s', g1, ?_⟩
          simp only [List.nil_append, Prod.mk.injEq, FileView.mk.injEq, true_and, and_true]
          simp; omega
      | some n =>
        rw [if_pos (by simp)]
        simp only [absFile] at ha
        split at ha
        · simp only [Option.some.injEq, Prod.mk.injEq] at ha
          obtain ⟨rfl, rfl⟩ := ha
          dsimp only
          by_cases hn0 : n ≤ 0
          · rw [if_pos hn0]
            have : n.toNat = 0 := by omega
            right
            refine ⟨s, h, ?_⟩
            simp [this]
          · rw [if_neg hn0]
            rcases hread n.toNat (by omega) (by rw [hz]; simp) with g | ⟨s', g1, g⟩
            · rcases hl : innerRead (pipeS k nbMin) s pos n.toNat with ⟨s', r⟩
              rw [hl] at g
              simp only at g
              subst g
              exact Or.inl rfl
            · rw [g]
              right
              refine ⟨s', g1, ?_⟩
              simp
        · cases ha
    · have hdiv : 8 * src.length / 8 = src.length := by omega
      rw [hz]
      simp only [Option.map_some, hdiv]
      rw [if_pos (Or.inl ⟨rfl, fun hc => by injection hc; omega⟩)]
      have fin : ∀ m : Nat, 0 < m → pos + m ≤ src.length →
          (src.drop pos).take m = (src.drop pos).take m := fun _ _ _ => rfl
      cases n with
      | none =>
        simp only [absFile, Option.some.injEq, Prod.mk.injEq] at ha
        obtain ⟨rfl, rfl⟩ := ha
        dsimp only
        by_cases hp : src.length ≤ pos
        · rw [if_pos (by omega), List.drop_eq_nil_of_le hp]
          exact Or.inr ⟨s, h, by simp⟩
        · rw [if_neg (by omega)]
          have e : ((src.length : Int) - (pos : Int)).toNat = src.length - pos := by omega
          have htk : (src.drop pos).take (src.length - pos) = src.drop pos := by
            rw [List.take_of_length_le]; simp
          rw [e]
          rcases hread (src.length - pos) (by omega) (by intro _; omega) with g | ⟨s', g1, g⟩
          · rcases hl : innerRead (pipeS k nbMin) s pos (src.length - pos) with ⟨s', r⟩
            rw [hl] at g
            simp only at g
            subst g
            exact Or.inl rfl
          · rw [g, htk]
            exact Or.inr ⟨s', g1, by simp⟩
      | some n =>
        simp only [absFile] at ha
        split at ha
        · rename_i hn
          simp only [Option.some.injEq, Prod.mk.injEq] at ha
          obtain ⟨rfl, rfl⟩ := ha
          dsimp only
          obtain ⟨m, hm⟩ : ∃ m : Int, (if (src.length : Int) < pos + n then some ((src.length : Int) - pos)
              else some n) = some m := by split <;> exact ⟨_, rfl⟩
          rw [hm]
          dsimp only
          have hmle : m ≤ src.length - pos ∧ m ≤ n ∧ (m = n ∨ m = src.length - pos) := by
            split at hm <;> cases hm <;> omega
          have htk : (src.drop pos).take m.toNat = (src.drop pos).take n.toNat := by
            rcases hmle.2.2 with he | he
            · rw [he]
            · rw [List.take_of_length_le (by simp; omega), List.take_of_length_le (by simp; omega)]
          by_cases hm0 : m ≤ 0
          · rw [if_pos hm0]
            have : m.toNat = 0 := by omega
            rw [this, List.take_zero] at htk
            rw [← htk]
            exact Or.inr ⟨s, h, by simp⟩
          · rw [if_neg hm0]
            rcases hread m.toNat (by omega) (by intro _; omega) with g | ⟨s', g1, g⟩
            · rcases hl : innerRead (pipeS k nbMin) s pos m.toNat with ⟨s', r⟩
              rw [hl] at g
              simp only at g
              subst g
              exact Or.inl rfl
            · rw [g, htk]
              exact Or.inr ⟨s', g1, by simp⟩
        · cases ha

/-- C44 for a stream of unknown size over a pipe: histories without seeks from
the end give the observations of a file with the same contents, until an access
is refused because the pipe discarded the data.  `fuel` bounds the number of
loop iterations inside one `read()`; it is never used up. -/
theorem C44_piped_partial (k nbMin : Nat) (hnb : 0 < nbMin) (src : Bytes) (hsrc : src ≠ []) (fuel : Nat)
    (hf : src.length + 1 < fuel) (ops : List FileOp) (outs : List FileOut)
    (ha : absRunPipe src 0 ops = some outs) :
    ∃ f, FileView.init (pipeS k nbMin) (PipeStream.init src) = .ok f ∧
      AgreesUntilRefused outs (f.run (pipeS k nbMin) fuel ops) := by
  refine ⟨⟨PipeStream.init src, 0, false⟩, rfl, ?_⟩
  have main : ∀ (ops : List FileOp) (s : PipeStream) (pos : Nat) (outs : List FileOut), SInv k nbMin src s →
      absRunPipe src pos ops = some outs →
      AgreesUntilRefused outs ((⟨s, pos, false⟩ : FileView PipeStream).run (pipeS k nbMin) fuel ops) := by
    intro ops
    induction ops with
    | nil => intro s pos outs _ h; simp [absRunPipe] at h; subst h; trivial
    | cons op ops ih =>
      intro s pos outs h hr
      simp only [absRunPipe] at hr
      by_cases hc : outsidePipe src pos op = true
      · rw [if_pos hc] at hr; cases hr
      · rw [if_neg hc] at hr
        cases hab : absFile src pos op with
        | none => rw [hab] at hr; cases hr
        | some po =>
          obtain ⟨pos', out⟩ := po
          rw [hab] at hr
          simp only [Option.map_eq_some_iff] at hr
          obtain ⟨outs', ho1, ho2⟩ := hr
          subst ho2
          simp only [FileView.run]
          rcases step_pipe k nbMin hnb src hsrc fuel hf s pos h op pos' out
            (by rintro p rfl; simp [outsidePipe] at hc) (by rintro rfl; simpa [outsidePipe] using hc) hab with g | ⟨s', g1, g⟩
          · exact Or.inl g
          · rw [g]
            exact Or.inr ⟨rfl, ih _ _ _ g1 ho1⟩
  exact main ops _ 0 outs (SInv_init k nbMin src) ha

example : absRunPipe [1, 2, 3, 4, 5, 6] 0
    [.read (some 2), .tell, .seek 1 0, .seek 1 1, .read none, .read (some 4), .seek 0 0, .read (some 9)] =
    some [.data [1, 2], .pos 2, .done, .done, .data [3, 4, 5, 6], .data [], .done, .data [1, 2, 3, 4, 5, 6]] := by
  decide

/-- C44 fails for a `read()` behind the end of a stream of unknown size:
AssertionError instead of no bytes. -/
theorem C44_piped_read_behind_end :
    (⟨PipeStream.init [1, 2, 3], 0, false⟩ : FileView PipeStream).run (pipeS 12 256) 9
      [.seek 5 0, .read none] = [.done, .err .assertion] := by decide +kernel

/-- C44 fails for seeks from the end while the size is unknown: a partial read
returns the right bytes but leaves the position at the end of the file. -/
theorem C44_piped_tail_read_position :
    (⟨PipeStream.init [1, 2, 3, 4, 5, 6], 0, false⟩ : FileView PipeStream).run (pipeS 12 256) 9
      [.seek (-4) 2, .read (some 2), .tell, .read (some 2)] = [.done, .data [3, 4], .pos 6, .data []] := by
  decide +kernel

end Props

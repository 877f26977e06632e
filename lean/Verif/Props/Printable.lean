import Verif.Core.Printable

/-!
# Property C17: printable text
-/

set_option linter.unusedVariables false
set_option linter.unusedSimpArgs false

namespace Hachoir.Props
open Hachoir.Printable

/-! ## The reading of a Python string literal (specification) -/

/-- Value of a hexadecimal digit. -/
def hexVal (c : Nat) : Nat := if c < 58 then c - 48 else c - 87

/-- Value of a hexadecimal number. -/
def hexNum (l : List Nat) : Nat := l.foldl (fun v c => 16 * v + hexVal c) 0

/-- Value of an octal number. -/
def octNum (l : List Nat) : Nat := l.foldl (fun v c => 8 * v + (c - 48)) 0

/-- What the inside of a Python string literal denotes: `\n \r \t \a \b`, `\xhh`,
`\uhhhh`, `\Uhhhhhhhh`, one to three octal digits, any other escaped character. -/
def readLiteral : List Nat → List Nat
  | [] => []
  | c :: t =>
    if c ≠ 92 then c :: readLiteral t
    else
      match t with
      | [] => [92]
      | k :: t =>
        if k = 110 then 10 :: readLiteral t
        else if k = 114 then 13 :: readLiteral t
        else if k = 116 then 9 :: readLiteral t
        else if k = 97 then 7 :: readLiteral t
        else if k = 98 then 8 :: readLiteral t
        else if k = 120 then hexNum (t.take 2) :: readLiteral (t.drop 2)
        else if k = 117 then hexNum (t.take 4) :: readLiteral (t.drop 4)
        else if k = 85 then hexNum (t.take 8) :: readLiteral (t.drop 8)
        else if isOct k then
          octNum (k :: (t.take 2).takeWhile isOct) ::
            readLiteral (t.drop ((t.take 2).takeWhile isOct).length)
        else k :: readLiteral t
termination_by l => l.length
decreasing_by all_goals simp_wf; all_goals (try simp only [List.length_drop]); all_goals omega

/-! ## Helper lemmas -/

theorem mem_smartFrom (k : Nat) (t : List Nat) : ∀ c ∈ smartFrom k t, c ∈ t := by
  induction t generalizing k with
  | nil => intro c h; simp [smartFrom] at h
  | cons a t ih =>
    intro c h
    cases k with
    | succ k =>
      simp only [smartFrom] at h
      exact List.mem_cons_of_mem _ (ih k c h)
    | zero =>
      simp only [smartFrom, List.mem_cons] at h
      rcases h with rfl | h
      · simp
      · exact List.mem_cons_of_mem _ (ih _ c h)

theorem hexDigit_range (n : Nat) (h : n < 16) :
    (48 ≤ hexDigit n ∧ hexDigit n ≤ 57) ∨ (97 ≤ hexDigit n ∧ hexDigit n ≤ 102) := by
  unfold hexDigit; split <;> omega

theorem hexVal_hexDigit (n : Nat) (h : n < 16) : hexVal (hexDigit n) = n := by
  unfold hexVal hexDigit
  split <;> split <;> omega

theorem controlChar_plain (c : Nat) (h : isControl c = true) :
    ∀ x ∈ controlChar c, 32 ≤ x ∧ x < 127 := by
  have hc : c < 128 := by
    simp only [isControl, Bool.or_eq_true, decide_eq_true_eq, beq_iff_eq] at h; omega
  have h1 := hexDigit_range (c / 16) (by omega)
  have h2 := hexDigit_range (c % 16) (by omega)
  intro x hx
  unfold controlChar at hx
  repeat' split at hx
  all_goals
    simp only [List.mem_cons, List.not_mem_nil, or_false] at hx
    omega

theorem backslash_plain (c : Nat) (h : c < 0x110000) :
    ∀ x ∈ backslash c, 32 ≤ x ∧ x < 127 := by
  intro x hx
  have d : ∀ m, m < 16 → x = hexDigit m → 32 ≤ x ∧ x < 127 := by
    intro m hm he
    have := hexDigit_range m hm
    omega
  unfold backslash at hx
  repeat' split at hx
  all_goals
    simp only [List.mem_cons, List.not_mem_nil, or_false] at hx
    rcases hx with rfl | rfl | hx
    · omega
    · omega
    repeat' rcases hx with hx | hx
    all_goals exact d _ (by omega) rfl

theorem escapeControls_ok (t : List Nat) : ∀ c ∈ escapeControls t, isControl c = false := by
  intro c hc
  obtain ⟨a, ha, hc⟩ := List.mem_flatMap.1 hc
  split at hc
  · rename_i h
    have := controlChar_plain a h c hc
    simp only [isControl, Bool.or_eq_false_iff, decide_eq_false_iff_not, beq_eq_false_iff_ne]
    omega
  · rename_i h
    simp only [List.mem_singleton] at hc
    subst hc; simpa using h

theorem mem_escapeControls_lt (t : List Nat) (ht : ∀ c ∈ t, c < 0x110000) :
    ∀ c ∈ escapeControls t, c < 0x110000 := by
  intro c hc
  obtain ⟨a, ha, hc⟩ := List.mem_flatMap.1 hc
  split at hc
  · rename_i h
    have := controlChar_plain a h c hc
    omega
  · simp only [List.mem_singleton] at hc
    subst hc; exact ht _ ha

theorem encode_ok (cs : Charset) (t : List Nat) (h : ∀ c ∈ t, isControl c = false)
    (ht : ∀ c ∈ t, c < 0x110000) :
    ∀ c ∈ encode cs t, isControl c = false ∧ cs.has c = true := by
  intro c hc
  obtain ⟨a, ha, hc⟩ := List.mem_flatMap.1 hc
  split at hc
  · rename_i hh
    simp only [List.mem_singleton] at hc
    subst hc; exact ⟨h _ ha, hh⟩
  · have := backslash_plain a (ht a ha) c hc
    constructor
    · simp only [isControl, Bool.or_eq_false_iff, decide_eq_false_iff_not, beq_eq_false_iff_ne]
      omega
    · cases cs <;> simp [Charset.has] <;> omega

/-- The charset in which the result is expressed. -/
def outCharset : Data → Charset → Charset
  | .text _, cs => cs
  | .bytes _, _ => .ascii

/-- The input is what Python can hold: code points, or bytes. -/
def Data.Valid : Data → Prop
  | .text t => ∀ c ∈ t, c < 0x110000
  | .bytes b => ∀ c ∈ b, c < 256

theorem makePrintable_raw (data : Data) (cs : Charset) (quote : Option Nat) (sm : Bool)
    (hv : Data.Valid data)
    (hq : ∀ q, quote = some q → isControl q = false ∧ q < 0x110000) :
    ∀ c ∈ makePrintable data cs quote sm,
      isControl c = false ∧ (data ≠ .bytes [] → (outCharset data cs).has c = true) := by
  have key : ∀ (t : List Nat) (cs : Charset), (∀ c ∈ t, c < 0x110000) →
      ∀ c ∈ encode cs (if t ≠ [] then
        (match quote with
          | none => escapeControls t
          | some q => q :: (if q = 34 ∨ q = 39 then escapeQuote q (escapeControls t)
              else escapeControls t) ++ [q])
        else (match quote with | none => [] | some _ => emptyText)),
        isControl c = false ∧ cs.has c = true := by
    intro t cs ht
    have e1 := escapeControls_ok t
    have e2 := mem_escapeControls_lt t ht
    apply encode_ok
    · intro c hc
      split at hc
      · cases hqq : quote with
        | none => simp only [hqq] at hc; exact e1 c hc
        | some q =>
          simp only [hqq, List.cons_append, List.mem_cons, List.mem_append, List.not_mem_nil,
            or_false] at hc
          obtain ⟨q1, q2⟩ := hq q hqq
          rcases hc with rfl | hc | rfl
          · exact q1
          · split at hc
            · obtain ⟨a, ha, hc⟩ := List.mem_flatMap.1 hc
              split at hc
              · simp only [List.mem_cons, List.not_mem_nil, or_false] at hc
                rcases hc with rfl | rfl
                · rfl
                · exact q1
              · simp only [List.mem_singleton] at hc
                subst hc; exact e1 _ ha
            · exact e1 c hc
          · exact q1
      · cases hqq : quote with
        | none => simp [hqq] at hc
        | some q =>
          simp only [hqq, emptyText, List.mem_cons, List.not_mem_nil, or_false] at hc
          simp only [isControl, Bool.or_eq_false_iff, decide_eq_false_iff_not, beq_eq_false_iff_ne]
          omega
    · intro c hc
      split at hc
      · cases hqq : quote with
        | none => simp only [hqq] at hc; exact e2 c hc
        | some q =>
          simp only [hqq, List.cons_append, List.mem_cons, List.mem_append, List.not_mem_nil,
            or_false] at hc
          obtain ⟨q1, q2⟩ := hq q hqq
          rcases hc with rfl | hc | rfl
          · exact q2
          · split at hc
            · obtain ⟨a, ha, hc⟩ := List.mem_flatMap.1 hc
              split at hc
              · simp only [List.mem_cons, List.not_mem_nil, or_false] at hc
                rcases hc with rfl | rfl
                · omega
                · exact q2
              · simp only [List.mem_singleton] at hc
                subst hc; exact e2 _ ha
            · exact e2 c hc
          · exact q2
      · cases hqq : quote with
        | none => simp [hqq] at hc
        | some q =>
          simp only [hqq, emptyText, List.mem_cons, List.not_mem_nil, or_false] at hc
          omega
  intro c hc
  unfold makePrintable at hc
  cases data with
  | text t =>
    have := key t cs hv
    simp only at hc
    cases sm with
    | true => exact (this c (mem_smartFrom 0 _ c (by cases quote <;> exact hc))).imp id fun h _ => h
    | false => exact (this c (by cases quote <;> exact hc)).imp id fun h _ => h
  | bytes b =>
    have := key b (if b = [] then cs else .ascii)
      (fun c hc => Nat.lt_trans (hv c hc) (by decide))
    simp only at hc
    have h2 : isControl c = false ∧ (if b = [] then cs else Charset.ascii).has c = true := by
      cases sm with
      | true => exact this c (mem_smartFrom 0 _ c (by cases quote <;> exact hc))
      | false => exact this c (by cases quote <;> exact hc)
    refine ⟨h2.1, fun hne => ?_⟩
    have hb : b ≠ [] := fun h => hne (by rw [h])
    simp only [hb, if_false] at h2
    exact h2.2

/-! ## C17 -/

/-- `makePrintable` never returns a control character, whatever the text or the
bytes, the charset and the options. -/
theorem C17_no_control (data : Data) (cs : Charset) (quote : Option Nat) (sm : Bool)
    (hv : Data.Valid data)
    (hq : ∀ q, quote = some q → 32 ≤ q ∧ q ≠ 127 ∧ q < 0x110000) :
    ∀ c ∈ makePrintable data cs quote sm, 32 ≤ c ∧ c ≠ 127 := by
  intro c hc
  have := (makePrintable_raw data cs quote sm hv (fun q h => by
    obtain ⟨h1, h2, h3⟩ := hq q h
    refine ⟨?_, h3⟩
    simp only [isControl, Bool.or_eq_false_iff, decide_eq_false_iff_not, beq_eq_false_iff_ne]
    omega) c hc).1
  simp only [isControl, Bool.or_eq_false_iff, decide_eq_false_iff_not, beq_eq_false_iff_ne] at this
  omega

/-- The result is expressed in the charset asked for; for bytes it is ASCII. -/
theorem C17_charset (data : Data) (cs : Charset) (quote : Option Nat) (sm : Bool)
    (hv : Data.Valid data) (hne : data ≠ .bytes [])
    (hq : ∀ q, quote = some q → 32 ≤ q ∧ q ≠ 127 ∧ q < 0x110000) :
    ∀ c ∈ makePrintable data cs quote sm, (outCharset data cs).has c = true := by
  intro c hc
  exact (makePrintable_raw data cs quote sm hv (fun q h => by
    obtain ⟨h1, h2, h3⟩ := hq q h
    refine ⟨?_, h3⟩
    simp only [isControl, Bool.or_eq_false_iff, decide_eq_false_iff_not, beq_eq_false_iff_ne]
    omega) c hc).2 hne

/-- `makeUnicode` never returns a control character. -/
theorem C17_makeUnicode (data : Data) : ∀ c ∈ makeUnicode data, 32 ≤ c ∧ c ≠ 127 := by
  have : ∀ t, ∀ c ∈ smart (escapeControls t), 32 ≤ c ∧ c ≠ 127 := by
    intro t c hc
    have := escapeControls_ok t c (mem_smartFrom 0 _ c hc)
    simp only [isControl, Bool.or_eq_false_iff, decide_eq_false_iff_not, beq_eq_false_iff_ne] at this
    omega
  cases data with
  | text t => exact this t
  | bytes b => exact this b

/-- Bytes 00 08 09 0a ff. -/
example : makePrintable (.bytes [0, 8, 9, 10, 255]) .utf8 none true
    = [92, 48, 92, 98, 92, 116, 92, 110, 92, 120, 102, 102] := by decide +kernel

/-- Printable ASCII text passes unchanged (without a backslash; in raw mode with
any characters). -/
theorem C17_plain_unchanged (t : List Nat) (cs : Charset) (sm : Bool)
    (ht : ∀ c ∈ t, 32 ≤ c ∧ c < 127) (hb : sm = true → 92 ∉ t) :
    makePrintable (.text t) cs none sm = t := by
  have e1 : escapeControls t = t := by
    unfold escapeControls
    clear hb
    induction t with
    | nil => rfl
    | cons c t ih =>
      have := ht c (by simp)
      have hc : isControl c = false := by
        simp only [isControl, Bool.or_eq_false_iff, decide_eq_false_iff_not, beq_eq_false_iff_ne]
        omega
      rw [List.flatMap_cons, ih (fun x hx => ht x (by simp [hx]))]
      simp [hc]
  have e2 : encode cs t = t := by
    unfold encode
    clear hb e1
    induction t with
    | nil => rfl
    | cons c t ih =>
      have := ht c (by simp)
      have hc : cs.has c = true := by cases cs <;> simp [Charset.has] <;> omega
      rw [List.flatMap_cons, ih (fun x hx => ht x (by simp [hx]))]
      simp [hc]
  have e3 : 92 ∉ t → smart t = t := by
    unfold smart
    clear hb e1 e2 ht
    intro hn
    induction t with
    | nil => rfl
    | cons c t ih =>
      simp only [List.mem_cons, not_or] at hn
      have : octHere (c :: t) = false := by
        unfold octHere
        split
        · rename_i h; simp at h; exact absurd h.1.symm hn.1
        · rfl
      simp only [smartFrom, this, Bool.false_eq_true, if_false, ih hn.2]
  unfold makePrintable
  simp only [e1]
  by_cases h0 : t = []
  · subst h0; cases sm <;> rfl
  · simp only [ne_eq, h0, not_false_eq_true, if_true, e2]
    cases sm with
    | true => simp [e3 (hb rfl)]
    | false => rfl

/-- In smart mode printable ASCII text can change: the four characters `\x01`
become `\1`. -/
theorem C17_plain_changed :
    makePrintable (.text [92, 120, 48, 49]) .ascii none true = [92, 49] := by decide +kernel

/-- Different texts can give the same result: a newline and the two characters
`\n`. -/
theorem C17_not_injective :
    makePrintable (.text [10]) .ascii none true = makePrintable (.text [92, 110]) .ascii none true := by
  decide +kernel

/-- Control characters of the C1 set are not escaped in UTF-8 text: CSI, 0x9b. -/
theorem C17_c1_not_escaped :
    makePrintable (.text [0x9b, 50, 74]) .utf8 none true = [0x9b, 50, 74] := by decide +kernel

/-! ### The text can be read back -/

/-- The piece printed for one character before the smart substitution. -/
def piece (cs : Charset) (quote : Option Nat) (c : Nat) : List Nat :=
  if isControl c then controlChar c
  else if quote = some c then [92, c]
  else if cs.has c then [c] else backslash c

theorem smartFrom_plain (l z : List Nat) (h : 92 ∉ l) :
    smartFrom 0 (l ++ z) = l ++ smartFrom 0 z := by
  induction l with
  | nil => rfl
  | cons c l ih =>
    simp only [List.mem_cons, not_or] at h
    have : octHere (c :: (l ++ z)) = false := by
      unfold octHere
      split
      · rename_i hh; simp at hh; exact absurd hh.1.symm h.1
      · rfl
    simp only [List.cons_append, smartFrom, this, Bool.false_eq_true, if_false, ih h.2]

theorem noOct_smart (z : List Nat) : noOct (smartFrom 0 z) = noOct z := by
  cases z with
  | nil => rfl
  | cons c z => simp [smartFrom, noOct]

theorem octHere_false (k : Nat) (l : List Nat) (h : k ≠ 120) : octHere (92 :: k :: l) = false := by
  unfold octHere
  split
  · rename_i hh; simp at hh; exact absurd hh.1 h
  · rfl

theorem octHere_x (a b : Nat) (l : List Nat) (h : a ≠ 48) :
    octHere (92 :: 120 :: a :: b :: l) = false := by
  unfold octHere
  split
  · rename_i hh; simp at hh; exact absurd hh.1 h
  · rfl

theorem hex_ne (n : Nat) (h : n < 16) : hexDigit n ≠ 92 := by
  have := hexDigit_range n h; omega

/-- Reading one piece back after the optional smart substitution. -/
theorem read_piece (cs : Charset) (quote : Option Nat) (c : Nat) (hc : c < 0x110000)
    (hb : c ≠ 92) (hq : ∀ q, quote = some q → q = 34 ∨ q = 39) (z : List Nat) :
    readLiteral (piece cs quote c ++ z) = c :: readLiteral z ∧
      readLiteral (smartFrom 0 (piece cs quote c ++ z)) = c :: readLiteral (smartFrom 0 z) := by
  have simple : ∀ k, (∀ z, readLiteral (92 :: k :: z) = c :: readLiteral z) → k ≠ 92 → k ≠ 120 →
      readLiteral ([92, k] ++ z) = c :: readLiteral z ∧
      readLiteral (smartFrom 0 ([92, k] ++ z)) = c :: readLiteral (smartFrom 0 z) := by
    intro k hk h1 h2
    refine ⟨hk z, ?_⟩
    have : smartFrom 0 ([92, k] ++ z) = 92 :: k :: smartFrom 0 z := by
      have o2 : octHere (k :: z) = false := by
        unfold octHere
        split
        · rename_i hh; simp at hh; exact absurd hh.1 h1
        · rfl
      simp only [List.cons_append, List.nil_append, smartFrom, octHere_false k z h2, o2,
        Bool.false_eq_true, if_false]
    rw [this]; exact hk _
  have hex2 : c < 256 → readLiteral ([92, 120, hexDigit (c / 16), hexDigit (c % 16)] ++ z)
        = c :: readLiteral z ∧
      readLiteral (smartFrom 0 ([92, 120, hexDigit (c / 16), hexDigit (c % 16)] ++ z))
        = c :: readLiteral (smartFrom 0 z) := by
    intro h256
    have v1 := hexVal_hexDigit (c / 16) (by omega)
    have v2 := hexVal_hexDigit (c % 16) (by omega)
    have rd : ∀ z, readLiteral ([92, 120, hexDigit (c / 16), hexDigit (c % 16)] ++ z)
        = c :: readLiteral z := by
      intro z
      simp only [List.cons_append, List.nil_append]
      rw [readLiteral]
      simp only [List.cons_append, List.nil_append, ne_eq, not_true_eq_false, if_false,
        Nat.reduceEqDiff, if_true, List.take_succ_cons, List.take_zero, List.drop_succ_cons,
        List.drop_zero, hexNum, List.foldl_cons, List.foldl_nil, v1, v2]
      congr 1; omega
    refine ⟨rd z, ?_⟩
    by_cases hm : octHere ([92, 120, hexDigit (c / 16), hexDigit (c % 16)] ++ z) = true
    · have ho : hexDigit (c / 16) = 48 := by
        refine Decidable.byContradiction fun hne => ?_
        rw [List.cons_append, List.cons_append, List.cons_append, List.cons_append,
          octHere_x _ _ _ hne] at hm
        cases hm
      have hm2 : isOct (hexDigit (c % 16)) = true ∧ noOct z = true := by
        simpa [octHere, ho] using hm
      have hd : hexDigit (c % 16) = 48 + c ∧ c < 8 := by
        have h1 : c / 16 = 0 := by
          have := hexVal_hexDigit (c / 16) (by omega)
          rw [ho] at this
          simpa [hexVal] using this.symm
        have h2 := hm2.1
        simp only [isOct, Bool.and_eq_true, decide_eq_true_eq] at h2
        unfold hexDigit at h2 ⊢
        split at h2 <;> rename_i h3
        · rw [if_pos h3]; omega
        · omega
      have sm : smartFrom 0 ([92, 120, hexDigit (c / 16), hexDigit (c % 16)] ++ z)
          = 92 :: hexDigit (c % 16) :: smartFrom 0 z := by
        have hm' : octHere (92 :: 120 :: hexDigit (c / 16) :: hexDigit (c % 16) :: z) = true := hm
        have o2 : octHere (hexDigit (c % 16) :: z) = false := by
          unfold octHere
          split
          · rename_i hh; simp at hh; exact absurd hh.1 (hex_ne _ (by omega))
          · rfl
        simp only [List.cons_append, List.nil_append, smartFrom, hm', if_true, o2,
          Bool.false_eq_true, if_false]
      rw [sm, hd.1, readLiteral]
      have hz : noOct (smartFrom 0 z) = true := by rw [noOct_smart]; exact hm2.2
      have hoct : isOct (48 + c) = true := by
        simp only [isOct, Bool.and_eq_true, decide_eq_true_eq]; omega
      have tw : ((smartFrom 0 z).take 2).takeWhile isOct = [] := by
        cases hsz : smartFrom 0 z with
        | nil => rfl
        | cons a l =>
          rw [hsz] at hz
          simp only [noOct, Bool.not_eq_true'] at hz
          simp [List.take_succ_cons, List.takeWhile_cons, hz]
      simp only [ne_eq, not_true_eq_false, if_false]
      rw [if_neg (by omega), if_neg (by omega), if_neg (by omega), if_neg (by omega),
        if_neg (by omega), if_neg (by omega), if_neg (by omega), if_neg (by omega), if_pos hoct, tw]
      simp [octNum]
    · have hm' : octHere (92 :: 120 :: hexDigit (c / 16) :: hexDigit (c % 16) :: z) = false := by
        simpa using hm
      have sm : smartFrom 0 ([92, 120, hexDigit (c / 16), hexDigit (c % 16)] ++ z)
          = [92, 120, hexDigit (c / 16), hexDigit (c % 16)] ++ smartFrom 0 z := by
        have := smartFrom_plain [120, hexDigit (c / 16), hexDigit (c % 16)] z (by
          have := hex_ne (c / 16) (by omega)
          have := hex_ne (c % 16) (by omega)
          simp only [List.mem_cons, List.not_mem_nil, or_false]; omega)
        simp only [List.cons_append, List.nil_append] at this ⊢
        rw [smartFrom]
        simp only [hm', Bool.false_eq_true, if_false, this]
      rw [sm]; exact rd _
  have hexn : ∀ k ds, (k = 117 ∨ k = 85) → (∀ d ∈ ds, ∃ m, m < 16 ∧ d = hexDigit m) →
      (∀ z, readLiteral (92 :: k :: ds ++ z) = c :: readLiteral z) →
      readLiteral (92 :: k :: ds ++ z) = c :: readLiteral z ∧
      readLiteral (smartFrom 0 (92 :: k :: ds ++ z)) = c :: readLiteral (smartFrom 0 z) := by
    intro k ds hk hds rd
    refine ⟨rd z, ?_⟩
    have h92 : 92 ∉ k :: ds := by
      intro h
      rcases List.mem_cons.1 h with h | h
      · omega
      · obtain ⟨m, hm, he⟩ := hds _ h
        exact hex_ne m hm he.symm
    have sm : smartFrom 0 (92 :: k :: ds ++ z) = 92 :: k :: ds ++ smartFrom 0 z := by
      have := smartFrom_plain (k :: ds) z h92
      simp only [List.cons_append] at this ⊢
      rw [smartFrom]
      simp only [octHere_false k _ (show k ≠ 120 by omega), Bool.false_eq_true, if_false, this]
    rw [sm]; exact rd _
  unfold piece
  split
  · rename_i hctl
    have hc128 : c < 128 := by
      simp only [isControl, Bool.or_eq_true, decide_eq_true_eq, beq_iff_eq] at hctl; omega
    unfold controlChar
    split
    · rename_i h; subst h
      exact simple 110 (fun z => by rw [readLiteral]; simp) (by decide) (by decide)
    split
    · rename_i h; subst h
      exact simple 114 (fun z => by rw [readLiteral]; simp) (by decide) (by decide)
    split
    · rename_i h; subst h
      exact simple 116 (fun z => by rw [readLiteral]; simp) (by decide) (by decide)
    split
    · rename_i h; subst h
      exact simple 97 (fun z => by rw [readLiteral]; simp) (by decide) (by decide)
    split
    · rename_i h; subst h
      exact simple 98 (fun z => by rw [readLiteral]; simp) (by decide) (by decide)
    exact hex2 (by omega)
  · rename_i hctl
    split
    · rename_i hqc
      have := hq c hqc
      refine simple c (fun z => ?_) (by omega) (by omega)
      rw [readLiteral]
      have hno : isOct c = false := by
        rcases this with rfl | rfl <;> rfl
      simp only [ne_eq, not_true_eq_false, if_false]
      rw [if_neg (by omega), if_neg (by omega), if_neg (by omega), if_neg (by omega),
        if_neg (by omega), if_neg (by omega), if_neg (by omega), if_neg (by omega), hno]
      rfl
    split
    · have : ∀ z, readLiteral (c :: z) = c :: readLiteral z := by
        intro z; rw [readLiteral.eq_def]; simp [hb]
      refine ⟨this z, ?_⟩
      rw [smartFrom_plain [c] z (by simpa using fun h => hb h.symm)]
      exact this _
    · unfold backslash
      split
      · rename_i h; exact hex2 h
      split
      · rename_i h1 h2
        refine hexn 117 _ (Or.inl rfl) ?_ ?_
        · intro d hd
          simp only [List.mem_cons, List.not_mem_nil, or_false] at hd
          rcases hd with rfl | rfl | rfl | rfl <;> exact ⟨_, by omega, rfl⟩
        · intro z
          simp only [List.cons_append, List.nil_append]
          rw [readLiteral]
          simp only [List.cons_append, List.nil_append, ne_eq, not_true_eq_false, if_false,
            Nat.reduceEqDiff, if_true, List.take_succ_cons, List.take_zero, List.drop_succ_cons,
            List.drop_zero, hexNum, List.foldl_cons, List.foldl_nil]
          rw [hexVal_hexDigit _ (by omega), hexVal_hexDigit _ (by omega),
            hexVal_hexDigit _ (by omega), hexVal_hexDigit _ (by omega)]
          congr 1; omega
      · rename_i h1 h2
        refine hexn 85 _ (Or.inr rfl) ?_ ?_
        · intro d hd
          simp only [List.mem_cons, List.not_mem_nil, or_false] at hd
          rcases hd with rfl | rfl | rfl | rfl | rfl | rfl | rfl | rfl <;>
            exact ⟨_, by omega, rfl⟩
        · intro z
          simp only [List.cons_append, List.nil_append]
          rw [readLiteral]
          simp only [List.cons_append, List.nil_append, ne_eq, not_true_eq_false, if_false,
            Nat.reduceEqDiff, if_true, List.take_succ_cons, List.take_zero, List.drop_succ_cons,
            List.drop_zero, hexNum, List.foldl_cons, List.foldl_nil]
          rw [hexVal_hexDigit _ (by omega), hexVal_hexDigit _ (by omega),
            hexVal_hexDigit _ (by omega), hexVal_hexDigit _ (by omega),
            hexVal_hexDigit _ (by omega), hexVal_hexDigit _ (by omega),
            hexVal_hexDigit _ (by omega), hexVal_hexDigit _ (by omega)]
          congr 1; omega

theorem read_pieces (cs : Charset) (quote : Option Nat) (t : List Nat)
    (ht : ∀ c ∈ t, c < 0x110000 ∧ c ≠ 92)
    (hq : ∀ q, quote = some q → q = 34 ∨ q = 39) (z : List Nat) :
    readLiteral (t.flatMap (piece cs quote) ++ z) = t ++ readLiteral z ∧
      readLiteral (smartFrom 0 (t.flatMap (piece cs quote) ++ z))
        = t ++ readLiteral (smartFrom 0 z) := by
  induction t with
  | nil => exact ⟨rfl, rfl⟩
  | cons c t ih =>
    obtain ⟨i1, i2⟩ := ih fun x hx => ht x (by simp [hx])
    obtain ⟨h1, h2⟩ := ht c (by simp)
    obtain ⟨p1, p2⟩ := read_piece cs quote c h1 h2 hq (t.flatMap (piece cs quote) ++ z)
    rw [List.flatMap_cons, List.append_assoc, p1, p2, i1, i2]
    exact ⟨rfl, rfl⟩

theorem encode_append (cs : Charset) (a b : List Nat) :
    encode cs (a ++ b) = encode cs a ++ encode cs b := by
  simp [encode, List.flatMap_append]

theorem encode_plain (cs : Charset) (t : List Nat) (h : ∀ c ∈ t, c < 127) : encode cs t = t := by
  induction t with
  | nil => rfl
  | cons c t ih =>
    have hc : cs.has c = true := by
      have := h c (by simp)
      cases cs <;> simp [Charset.has] <;> omega
    have := ih fun x hx => h x (by simp [hx])
    unfold encode at *
    rw [List.flatMap_cons, this]
    simp [hc]

theorem escapeQuote_append (q : Nat) (a b : List Nat) :
    escapeQuote q (a ++ b) = escapeQuote q a ++ escapeQuote q b := by
  simp [escapeQuote, List.flatMap_append]

theorem escapeQuote_none (q : Nat) (t : List Nat) (h : q ∉ t) : escapeQuote q t = t := by
  induction t with
  | nil => rfl
  | cons c t ih =>
    simp only [List.mem_cons, not_or] at h
    have := ih h.2
    unfold escapeQuote at *
    rw [List.flatMap_cons, this]
    simp [Ne.symm h.1]

theorem control_no_quote (c q : Nat) (hc : isControl c = true) (hq : q = 34 ∨ q = 39) :
    q ∉ controlChar c := by
  have h1 := hexDigit_range (c / 16)
  have h2 := hexDigit_range (c % 16) (by omega)
  have hc : c < 128 := by
    simp only [isControl, Bool.or_eq_true, decide_eq_true_eq, beq_iff_eq] at hc; omega
  have h1 := h1 (by omega)
  intro hx
  unfold controlChar at hx
  repeat' split at hx
  all_goals
    simp only [List.mem_cons, List.not_mem_nil, or_false] at hx
    omega

/-- What is printed without quotes, piece by piece. -/
theorem encode_pieces (cs : Charset) (t : List Nat) :
    encode cs (escapeControls t) = t.flatMap (piece cs none) := by
  induction t with
  | nil => rfl
  | cons c t ih =>
    have : escapeControls (c :: t)
        = (if isControl c then controlChar c else [c]) ++ escapeControls t := by
      simp [escapeControls]
    rw [this, encode_append, ih, List.flatMap_cons]
    congr 1
    unfold piece
    split
    · rename_i h
      exact encode_plain cs _ fun x hx => (controlChar_plain c h x hx).2
    · simp [encode]

theorem encode_quoted_pieces (cs : Charset) (q : Nat) (hq : q = 34 ∨ q = 39) (t : List Nat) :
    encode cs (escapeQuote q (escapeControls t)) = t.flatMap (piece cs (some q)) := by
  induction t with
  | nil => rfl
  | cons c t ih =>
    have : escapeControls (c :: t)
        = (if isControl c then controlChar c else [c]) ++ escapeControls t := by
      simp [escapeControls]
    rw [this, escapeQuote_append, encode_append, ih, List.flatMap_cons]
    congr 1
    unfold piece
    split
    · rename_i h
      rw [escapeQuote_none q _ (control_no_quote c q h hq)]
      exact encode_plain cs _ fun x hx => (controlChar_plain c h x hx).2
    · by_cases hcq : c = q
      · subst hcq
        have : escapeQuote c [c] = [92, c] := by simp [escapeQuote]
        rw [this]
        simp only [if_true]
        exact encode_plain cs _ (by
          intro x hx
          simp only [List.mem_cons, List.not_mem_nil, or_false] at hx
          omega)
      · have : escapeQuote q [c] = [c] := by simp [escapeQuote, hcq]
        rw [this]
        simp only [Option.some.injEq, Ne.symm hcq, if_false]
        simp [encode]

/-- A text without backslash can be read back from the printed form: it is what
the Python string literal denotes, in every charset, in smart and raw mode. -/
theorem C17_readable (t : List Nat) (cs : Charset) (sm : Bool)
    (ht : ∀ c ∈ t, c < 0x110000 ∧ c ≠ 92) :
    readLiteral (makePrintable (.text t) cs none sm) = t := by
  obtain ⟨h1, h2⟩ := read_pieces cs none t ht (by simp) []
  have hz : readLiteral [] = [] := by rw [readLiteral]
  simp only [List.append_nil, smartFrom, hz] at h1 h2
  unfold makePrintable
  by_cases h0 : t = []
  · subst h0
    cases sm <;> simp [encode, smart, smartFrom, hz]
  · simp only [ne_eq, h0, not_false_eq_true, if_true, encode_pieces]
    cases sm with
    | true => exact h2
    | false => exact h1

/-- With quotes the result is a Python string literal for the text. -/
theorem C17_readable_quoted (t : List Nat) (cs : Charset) (sm : Bool) (q : Nat)
    (hq : q = 34 ∨ q = 39) (h0 : t ≠ []) (ht : ∀ c ∈ t, c < 0x110000 ∧ c ≠ 92) :
    readLiteral (makePrintable (.text t) cs (some q) sm) = q :: t ++ [q] := by
  obtain ⟨h1, h2⟩ := read_pieces cs (some q) t ht (by rintro x ⟨⟩; exact hq) [q]
  have hq92 : q ≠ 92 := by omega
  have hn : readLiteral [] = [] := by rw [readLiteral]
  have hone : ∀ z, readLiteral (q :: z) = q :: readLiteral z := by
    intro z; rw [readLiteral.eq_def]; simp [hq92]
  have hs : ∀ z, smartFrom 0 (q :: z) = q :: smartFrom 0 z := fun z =>
    smartFrom_plain [q] z (by simpa using fun h => hq92 h.symm)
  have he : encode cs [q] = [q] := encode_plain cs _ (by simp; omega)
  unfold makePrintable
  simp only [ne_eq, h0, not_false_eq_true, if_true, hq]
  have e : encode cs (q :: escapeQuote q (escapeControls t) ++ [q])
      = q :: (t.flatMap (piece cs (some q)) ++ [q]) := by
    have : q :: escapeQuote q (escapeControls t) ++ [q]
        = [q] ++ (escapeQuote q (escapeControls t) ++ [q]) := rfl
    rw [this, encode_append, encode_append, he, encode_quoted_pieces cs q hq]
    rfl
  rw [e]
  cases sm with
  | true =>
    simp only [if_true, smart, hs, hone, h2]
    simp [smartFrom, hn]
  | false =>
    simp only [Bool.false_eq_true, if_false, hone, h1, hn]
    rfl

/-- So two texts without backslash never look the same. -/
theorem C17_injective_partial (t u : List Nat) (cs : Charset) (sm sm' : Bool)
    (ht : ∀ c ∈ t, c < 0x110000 ∧ c ≠ 92) (hu : ∀ c ∈ u, c < 0x110000 ∧ c ≠ 92)
    (h : makePrintable (.text t) cs none sm = makePrintable (.text u) cs none sm') : t = u := by
  rw [← C17_readable t cs sm ht, h, C17_readable u cs sm' hu]

/-- A zero character followed by the digit 1 and by the letter a. -/
example :
    makePrintable (.text [0, 49]) .ascii none true = [92, 120, 48, 48, 49] ∧
      makePrintable (.text [0, 97, 0x20ac]) .latin1 (some 34) true
        = [34, 92, 48, 97, 92, 117, 50, 48, 97, 99, 34] := by decide +kernel

end Hachoir.Props

import Verif.Regex.Regex

/-!
Meaning of regular expressions, independent of the code's simplifications:
`Matches isWord w r i j` says that `r` matches the part of the text `w` from
position `i` to position `j`, with the meaning Python's `re` module (no flag)
gives to the text printed for `r`.
-/

namespace Hachoir.Regex

/-- Word character just before / at a position. -/
def wordAt (isWord : Nat → Bool) (w : List Nat) (i : Nat) : Bool :=
  match w[i]? with
  | some c => isWord c
  | none => false

/-- `\b`: exactly one of the two neighbours of the position is a word character. -/
def boundary (isWord : Nat → Bool) (w : List Nat) (i : Nat) : Prop :=
  (if i = 0 then false else wordAt isWord w (i - 1)) ≠ wordAt isWord w i

/-- `$`: the end of the text, or just before a newline that ends it. -/
def atEnd (w : List Nat) (i : Nat) : Prop :=
  i = w.length ∨ (i + 1 = w.length ∧ w[i]? = some 10)

/-- The characters of a list of ranges. -/
def InItems (rs : List Item) (c : Nat) : Prop := ∃ a ∈ rs, a.cmin ≤ c ∧ c ≤ a.cmax

/-- `n` matches of `R` in a row. -/
def Times (R : Nat → Nat → Prop) : Nat → Nat → Nat → Prop
  | 0, i, j => i = j
  | n + 1, i, j => ∃ k, R i k ∧ Times R n k j

mutual
/-- `r` matches `w[i:j]`. -/
def Matches (isWord : Nat → Bool) (w : List Nat) : Rx → Nat → Nat → Prop
  | .empty, i, j => i = j
  | .word, i, j => i = j ∧ boundary isWord w i
  | .start, i, j => i = j ∧ i = 0
  | .stop, i, j => i = j ∧ atEnd w i
  | .dot, i, j => j = i + 1 ∧ ∃ c, w[i]? = some c ∧ c ≠ 10
  | .str t, i, j => j = i + t.length ∧ t <+: w.drop i
  | .range rs e, i, j =>
    j = i + 1 ∧ ∃ c, w[i]? = some c ∧ (if e then ¬ InItems rs c else InItems rs c)
  | .and l, i, j => MatchesSeq isWord w l i j
  | .or l, i, j => MatchesAlt isWord w l i j
  | .rep r m mx, i, j =>
    ∃ n, m ≤ n ∧ (∀ x, mx = some x → n ≤ x) ∧ Times (Matches isWord w r) n i j
/-- The items match one after the other. -/
def MatchesSeq (isWord : Nat → Bool) (w : List Nat) : List Rx → Nat → Nat → Prop
  | [], i, j => i = j
  | r :: l, i, j => ∃ k, Matches isWord w r i k ∧ MatchesSeq isWord w l k j
/-- One of the items matches. -/
def MatchesAlt (isWord : Nat → Bool) (w : List Nat) : List Rx → Nat → Nat → Prop
  | [], _, _ => False
  | r :: l, i, j => Matches isWord w r i j ∨ MatchesAlt isWord w l i j
end

mutual
/-- What the constructors of regex.py guarantee (strings are not empty, `RegexAnd`
and `RegexOr` have two items or more, range items are ordered), and no empty
character range (`[]` is not a valid pattern for Python). -/
def WF : Rx → Prop
  | .str t => t ≠ []
  | .range rs _ => rs ≠ [] ∧ ∀ a ∈ rs, a.cmin ≤ a.cmax
  | .and l => 2 ≤ l.length ∧ WFs l
  | .or l => 2 ≤ l.length ∧ WFs l
  | .rep r _ _ => WF r
  | _ => True
def WFs : List Rx → Prop
  | [] => True
  | r :: l => WF r ∧ WFs l
end

mutual
/-- No excluding range (`[^...]`) inside the expression. -/
def NoExclude : Rx → Prop
  | .range _ e => e = false
  | .and l => NoExcludes l
  | .or l => NoExcludes l
  | .rep r _ _ => NoExclude r
  | _ => True
def NoExcludes : List Rx → Prop
  | [] => True
  | r :: l => NoExclude r ∧ NoExcludes l
end

mutual
/-- No dot inside the expression. -/
def NoDot : Rx → Prop
  | .dot => False
  | .and l => NoDots l
  | .or l => NoDots l
  | .rep r _ _ => NoDot r
  | _ => True
def NoDots : List Rx → Prop
  | [] => True
  | r :: l => NoDot r ∧ NoDots l
end

end Hachoir.Regex

import Verif.Regex.Regex

/-!
Model of `&` on regular expression *objects* (hachoir/regex/regex.py), with
the in-place change of `RegexAnd.content` (regex.py 651-654) and sharing.

Objects live in a list of cells; the address of an object is its index.  Only
`RegexAnd.content` is ever assigned after construction, by `_and`.
-/

namespace Hachoir.Regex

/-- One object: an expression without parts, or a `RegexAnd`, `RegexOr` or
`RegexRepeat` that refers to other objects. -/
inductive Node where
  | atom (r : Rx)
  | and (content : List Nat)
  | or (content : List Nat)
  | rep (regex : Nat) (min : Nat) (max : Option Nat)
deriving Repr

abbrev Heap := List Node

/-- `self.content[-1] = new_item`, regex.py 653. -/
def setLast (h : Heap) (a d : Nat) : Heap :=
  match h[a]? with
  | some (.and l) => h.set a (.and (l.dropLast ++ [d]))
  | _ => h

/-- `RegexAnd(self.content + [regex])`, regex.py 655. -/
def newAnd (h : Heap) (a b : Nat) : Heap :=
  match h[a]? with
  | some (.and l) => h ++ [.and (l ++ [b])]
  | _ => h

/-- `for item in regex.content: total = total + item`, regex.py 647-650.  The
list iterator reads `content` at each step; no operation changes the length of
a `content` list, so the number of steps is fixed at the start. -/
def loopWith (f : Heap → Nat → Nat → Option (Heap × Nat)) (h : Heap) (total b k : Nat) :
    Nat → Option (Heap × Nat)
  | 0 => some (h, total)
  | cnt + 1 =>
    match h[b]? with
    | some (.and m) =>
      match m[k]? with
      | some item =>
        match f h total item with
        | some (h', t') => loopWith f h' t' b (k + 1) cnt
        | none => none
      | none => none
    | _ => none

mutual
/-- The `_and` methods: `Regex` 168-173, `RegexEmpty` 283-284, `RegexWord`
292-295, `RegexStart` 303-306, `RegexEnd` 314-317, `RegexString` 352-359,
`RegexAnd` 638-655.  The result `none` inside stands for Python's `None`.  The
outer `none`: out of fuel, or a dangling address. -/
def andM : Nat → Heap → Nat → Nat → Option (Heap × Option Nat)
  | 0, _, _, _ => none
  | n + 1, h, a, b =>
    match h[a]?, h[b]? with
    | some (.atom .empty), some _ => some (h, some b)
    | some (.atom .word), some (.atom .word) => some (h, some a)
    | some (.atom .start), some (.atom .start) => some (h, some a)
    | some (.atom .stop), some (.atom .stop) => some (h, some a)
    | some (.atom (.str s)), some (.atom (.str t)) =>
      some (h ++ [.atom (.str (s ++ t))], some h.length)
    | some (.and _), some (.and m) =>
      match loopWith (addR n) h a b 0 m.length with
      | some (h', t) => some (h', some t)
      | none => none
    | some (.and l), some _ =>
      match l.getLast? with
      | none => none
      | some c =>
        match andM n h c b with
        | none => none
        | some (h', some d) => some (setLast h' a d, some a)
        | some (h', none) => some (newAnd h' a b, some h'.length)
    | some _, some _ => some (h, none)
    | _, _ => none

/-- `Regex.__and__`, regex.py 175-189. -/
def addR : Nat → Heap → Nat → Nat → Option (Heap × Nat)
  | 0, _, _, _ => none
  | n + 1, h, a, b =>
    match h[b]? with
    | some (.atom .empty) => some (h, a)
    | _ =>
      match andM n h a b with
      | none => none
      | some (h', some d) => some (h', d)
      | some (h', none) => some (h' ++ [.and [a, b]], h'.length)
end

/-! ## What an object denotes -/

/-- Expressions without parts. -/
def isAtom : Rx → Bool
  | .and _ => false
  | .or _ => false
  | .rep _ _ _ => false
  | _ => true

mutual
/-- In the heap `h` the object `a` is the expression `r`; all objects it is made
of satisfy `P`. -/
inductive Den (h : Heap) (P : Nat → Prop) : Nat → Rx → Prop
  | atom {a r} : h[a]? = some (.atom r) → isAtom r = true → P a → Den h P a r
  | and {a l rs} : h[a]? = some (.and l) → P a → Dens h P l rs → Den h P a (.and rs)
  | or {a l rs} : h[a]? = some (.or l) → P a → Dens h P l rs → Den h P a (.or rs)
  | rep {a c r m mx} : h[a]? = some (.rep c m mx) → P a → Den h P c r → Den h P a (.rep r m mx)
inductive Dens (h : Heap) (P : Nat → Prop) : List Nat → List Rx → Prop
  | nil : Dens h P [] []
  | cons {a l r rs} : Den h P a r → Dens h P l rs → Dens h P (a :: l) (r :: rs)
end

/-- `r` is not a `RegexAnd`. -/
def notAnd : Rx → Bool
  | .and _ => false
  | _ => true

/-- The object `a` is the expression `r`; `S` are the `RegexAnd` objects met
when going from `a` to the last item again and again; all other objects it is
made of satisfy `P`. -/
inductive Own (h : Heap) (P : Nat → Prop) : List Nat → Nat → Rx → Prop
  | other {a r} : Den h P a r → notAnd r = true → Own h P [] a r
  | and {a l c rs r S} : h[a]? = some (.and (l ++ [c])) → Dens h P l rs → Own h P S c r →
      Own h P (a :: S) a (.and (rs ++ [r]))

/-- Spine and other objects are apart and exist. -/
structure Apart (h : Heap) (P : Nat → Prop) (S : List Nat) : Prop where
  inP : ∀ x, P x → x < h.length
  inS : ∀ x ∈ S, x < h.length
  disj : ∀ x ∈ S, ¬ P x
  nodup : S.Nodup

end Hachoir.Regex

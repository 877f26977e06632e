/-
Model of hachoir/regex/regex.py: regular expression objects and the
simplifications done by `&`, `|` and repetition.

Characters are code points (`Nat`).  Expressions are immutable values here;
the in-place change made by `RegexAnd._and` is modelled in
`Verif/Regex/Heap.lean`.
-/

namespace Hachoir.Regex

/-- `RegexRangeItem`, regex.py 426-461: the characters from `cmin` to `cmax`. -/
structure Item where
  cmin : Nat
  cmax : Nat
deriving Repr, DecidableEq

/-- Regular expression objects, one constructor per class of regex.py:
`RegexEmpty` 275, `RegexWord` 290, `RegexStart` 301, `RegexEnd` 312,
`RegexDot` 323, `RegexString` 342, `RegexRange` 470, `RegexAnd` 575,
`RegexOr` 677, `RegexRepeat` 806. -/
inductive Rx where
  | empty
  | word
  | start
  | stop
  | dot
  | str (text : List Nat)
  | range (ranges : List Item) (exclude : Bool)
  | and (content : List Rx)
  | or (content : List Rx)
  | rep (regex : Rx) (min : Nat) (max : Option Nat)
deriving Repr

/-- `RegexRangeItem.__len__`, regex.py 442-443. -/
def Item.len (a : Item) : Nat := a.cmax - a.cmin + 1

/-- `value in self` for range items, regex.py 445-447
(`b.within a` is Python's `b in a`). -/
def Item.within (b a : Item) : Bool := a.cmin ≤ b.cmin && b.cmax ≤ a.cmax

/-- `RegexRangeCharacter`, regex.py 464-467. -/
def charItem (c : Nat) : Item := ⟨c, c⟩

/-- What the loop of `RegexRange.rangeAdd` (regex.py 488-504) decides for one
item `a` of the list and the new item `b`: `none` continues, `some none` is the
early `return`, `some (some new)` is `break` with `new` set. -/
def mergeStep (a b : Item) : Option (Option Item) :=
  if a.within b then some (some b)
  else if b.within a then some none
  else if b.cmax + 1 = a.cmin then some (some ⟨b.cmin, a.cmax⟩)
  else if a.cmax + 1 = b.cmin then some (some ⟨a.cmin, b.cmax⟩)
  else none

/-- The loop of `RegexRange.rangeAdd` with `del ranges[index]`: `none` if it
runs to its end, `some none` if it returns, `some (some (rest, new))` if it
breaks at an item, `rest` being the list without that item. -/
def mergeScan : List Item → Item → Option (Option (List Item × Item))
  | [], _ => none
  | a :: l, b =>
    match mergeStep a b with
    | some none => some none
    | some (some new) => some (some (l, new))
    | none =>
      match mergeScan l b with
      | none => none
      | some none => some none
      | some (some (rest, new)) => some (some (a :: rest, new))

/-- `RegexRange.rangeAdd`, regex.py 482-510; the recursion deletes one item
each time, the first argument bounds its depth. -/
def rangeAddN : Nat → List Item → Item → List Item
  | 0, l, b => l ++ [b]
  | n + 1, l, b =>
    match mergeScan l b with
    | none => l ++ [b]
    | some none => l
    | some (some (rest, new)) => rangeAddN n rest new

def rangeAdd (l : List Item) (b : Item) : List Item := rangeAddN l.length l b

/-- Stable insertion in a list sorted by `cmin` (the sort of regex.py 477). -/
def insertItem (a : Item) : List Item → List Item
  | [] => [a]
  | b :: l => if a.cmin ≤ b.cmin then a :: b :: l else b :: insertItem a l

def sortItems : List Item → List Item
  | [] => []
  | a :: l => insertItem a (sortItems l)

/-- `RegexRange.__init__` with `optimize=True`, regex.py 472-480. -/
def mkRange (items : List Item) (exclude : Bool) : Rx :=
  .range (sortItems (items.foldl rangeAdd [])) exclude

/-- `createRange`, regex.py 98-108. -/
def createRange (chars : List Nat) (exclude : Bool) : Rx :=
  mkRange (chars.map charItem) exclude

/-- `createString`, regex.py 85-95. -/
def createString (text : List Nat) : Rx :=
  if text = [] then .empty else .str text

mutual
/-- `matchSingleValue`, regex.py 41-63 (`exclude` is ignored by the code). -/
def single : Rx → Bool
  | .empty => true
  | .str _ => true
  | .start => true
  | .stop => true
  | .and l => singles l
  | .range rs _ => match rs with
    | [a] => a.len == 1
    | _ => false
  | _ => false
def singles : List Rx → Bool
  | [] => true
  | r :: l => single r && singles l
end

/-- `self.__class__ == other.__class__`. -/
def sameClass : Rx → Rx → Bool
  | .empty, .empty => true
  | .word, .word => true
  | .start, .start => true
  | .stop, .stop => true
  | .dot, .dot => true
  | .str _, .str _ => true
  | .range .., .range .. => true
  | .and _, .and _ => true
  | .or _, .or _ => true
  | .rep .., .rep .. => true
  | _, _ => false

mutual
/-- `Regex.__eq__` and the `_eq` methods (regex.py 247-257, 286, 338, 422, 569,
671, 757, 891).  `RegexRange._eq` compares lists of `RegexRangeItem`, which have
no `__eq__`, so it is an object identity test: `same` is an arbitrary answer to
that test. -/
def eqv (same : List Item → List Item → Bool) : Rx → Rx → Bool
  | .empty, .empty => true
  | .word, .word => true
  | .start, .start => true
  | .stop, .stop => true
  | .dot, .dot => true
  | .str s, .str t => s == t
  | .range rs e, .range rs' e' => e == e' && same rs rs'
  | .and l, .and m => eqvs same l m
  | .or l, .or m => eqvs same l m
  | .rep r a b, .rep r' a' b' => a == a' && b == b' && eqv same r r'
  | _, _ => false
/-- Element by element comparison of two contents of equal length. -/
def eqvs (same : List Item → List Item → Bool) : List Rx → List Rx → Bool
  | [], [] => true
  | a :: l, b :: m => eqv same a b && eqvs same l m
  | _, _ => false
end

/-- The item list used by `RegexRange._match` and `RegexRange._or_` for the
other operand (regex.py 522-527, 540-545). -/
def otherItems (exclude : Bool) : Rx → Option (List Item)
  | .str [c] => if exclude then none else some [charItem c]
  | .range rs e => if exclude == e then some rs else none
  | _ => none

/-- The `_match` methods: `Regex._match` 159-166, `RegexDot._match` 331-336,
`RegexRange._match` 515-531 (`None` counts as false). -/
def matches_ : Rx → Rx → Bool
  | .dot, .range _ _ => true
  | .dot, .str t => t.length == 1
  | .range rs e, other =>
    match otherItems e other with
    | none => false
    | some items => items.all fun b => rs.any fun a => b.within a
  | _, _ => false

mutual
/-- The `_and` methods for an argument that is not a `RegexAnd`: `Regex._and`
168-173, `RegexEmpty._and` 283, `RegexWord._and` 292, `RegexStart._and` 303,
`RegexEnd._and` 314, `RegexString._and` 352-359, `RegexAnd._and` 651-655. -/
def andStep : Rx → Rx → Option Rx
  | .empty, b => some b
  | .word, .word => some .word
  | .start, .start => some .start
  | .stop, .stop => some .stop
  | .str s, .str t => some (.str (s ++ t))
  | .and l, b =>
    match andLast l b with
    | some l' => some (.and l')
    | none => some (.and (l ++ [b]))
  | _, _ => none
/-- `self.content[-1]._and(regex)` and the replacement of the last item. -/
def andLast : List Rx → Rx → Option (List Rx)
  | [], _ => none
  | [x], b =>
    match andStep x b with
    | some y => some [y]
    | none => none
  | x :: y :: l, b =>
    match andLast (y :: l) b with
    | some l' => some (x :: l')
    | none => none
end

mutual
/-- `Regex.__and__`, regex.py 175-189, with the `RegexAnd` argument case of
`RegexAnd._and` (regex.py 646-650). -/
def andOp (a : Rx) : Rx → Rx
  | .empty => a
  | .and m =>
    match a with
    | .and _ => andFold a m
    | .empty => .and m
    | _ => .and [a, .and m]
  | b =>
    match andStep a b with
    | some r => r
    | none => .and [a, b]
/-- `for item in regex.content: total = total + item`. -/
def andFold (total : Rx) : List Rx → Rx
  | [] => total
  | x :: l => andFold (andOp total x) l
end

/-- `RegexAnd.join`, regex.py 74-82 and 660-666. -/
def andJoin : List Rx → Rx
  | [] => .empty
  | r :: l => l.foldl andOp r

/-- Length of the longest common prefix of two texts. -/
def commonLen : List Nat → List Nat → Nat
  | a :: s, b :: t => if a = b then commonLen s t + 1 else 0
  | _, _ => 0

/-- `RegexString.findPrefix`, regex.py 364-391. -/
def findPrefix (s t : List Nat) : Option (Rx × Rx × Rx) :=
  match s, t with
  | [a], [b] => some (createRange [a, b] false, .empty, .empty)
  | _, _ =>
    let n := commonLen s t
    if n = 0 then none
    else some (.str (s.take n), createString (s.drop n), createString (t.drop n))

/-- `contenta[0].findPrefix(contentb[0])`: only strings define `findPrefix`
(`Regex.findPrefix`, regex.py 262-269, returns `None`). -/
def headPrefix : List Rx → List Rx → Option (Rx × Rx × Rx)
  | .str s :: _, .str t :: _ => findPrefix s t
  | _, _ => none

/-- The `while` loop of `RegexAnd._or_`, regex.py 617-622: common first items
and the two remainders. -/
def splitCommon (same : List Item → List Item → Bool) :
    List Rx → List Rx → List Rx × List Rx × List Rx
  | a :: l, b :: m =>
    if eqv same a b then
      let (p, x, y) := splitCommon same l m
      (a :: p, x, y)
    else ([], a :: l, b :: m)
  | l, m => ([], l, m)

/-- The loop of `RegexOr._or_` over its items (regex.py 708-713): `f` is
`lambda item: item.or_(other)`; the outer `none` is running out of fuel. -/
def orItems (f : Rx → Option (Option Rx)) : List Rx → Option (Option (List Rx))
  | [] => some none
  | x :: l =>
    match f x with
    | none => none
    | some (some r) => some (some (r :: l))
    | some none =>
      match orItems f l with
      | none => none
      | some none => some none
      | some (some l') => some (some (x :: l'))

/-- `for item in other.content: total = total | item` (regex.py 703-707). -/
def foldBar (g : Rx → Rx → Option Rx) : Rx → List Rx → Option Rx
  | total, [] => some total
  | total, x :: l =>
    match g total x with
    | none => none
    | some t => foldBar g t l

/-- `RegexAnd._or_` after the operands are known, regex.py 613-636; `g` is the
`|` operator. -/
def orAnd (same : List Item → List Item → Bool) (g : Rx → Rx → Option Rx)
    (la lb : List Rx) : Option (Option Rx) :=
  match splitCommon same la lb with
  | (p :: ps, x, y) =>
    match g (andJoin x) (andJoin y) with
    | none => none
    | some r => some (some (andOp (andJoin (p :: ps)) r))
  | ([], _, _) =>
    match headPrefix la lb with
    | none => some none
    | some (c, x, y) =>
      match g (andOp x (andJoin la.tail)) (andOp y (andJoin lb.tail)) with
      | none => none
      | some r => if single c || single r then some (some (andOp c r)) else some none

/-- The contents compared by `RegexAnd._or_`, regex.py 606-611. -/
def andContent : Rx → Option (List Rx)
  | .str t => some [.str t]
  | .and l => some l
  | _ => none

mutual
/-- `Regex.__or__`, regex.py 233-245.  The `Nat` is a recursion budget: `none`
means that it was too small (`C31_or_terminates` gives a sufficient budget). -/
def bar (same : List Item → List Item → Bool) : Nat → Rx → Rx → Option Rx
  | 0, _, _ => none
  | n + 1, a, b =>
    match orU same n a b with
    | none => none
    | some (some r) => some r
    | some none => some (.or [a, b])
/-- `Regex.or_`, regex.py 194-224; the inner `none` is Python's `None`. -/
def orU (same : List Item → List Item → Bool) : Nat → Rx → Rx → Option (Option Rx)
  | 0, _, _ => none
  | n + 1, a, b =>
    if eqv same a b then some (some a)
    else if matches_ a b then some (some a)
    else if matches_ b a then some (some b)
    else if sameClass a b then orM same n a b false
    else
      match orM same n a b false with
      | none => none
      | some (some r) => some (some r)
      | some none => orM same n b a true
/-- The `_or_` methods: `Regex._or_` 226-231, `RegexString._or_` 393-420,
`RegexRange._or_` 533-549, `RegexAnd._or_` 605-636, `RegexOr._or_` 696-718. -/
def orM (same : List Item → List Item → Bool) :
    Nat → Rx → Rx → Bool → Option (Option Rx)
  | 0, _, _, _ => none
  | n + 1, a, b, reverse =>
    match a with
    | .str s =>
      match b with
      | .str t =>
        match findPrefix s t with
        | none => some none
        | some (c, x, y) =>
          match (if reverse then bar same n y x else bar same n x y) with
          | none => none
          | some r => some (some (andOp c r))
      | _ => some none
    | .range rs e =>
      match otherItems e b with
      | none => some none
      | some items => some (some (.range (items.foldl rangeAdd rs) e))
    | .and l =>
      match andContent b with
      | none => some none
      | some m =>
        if reverse then orAnd same (bar same n) m l else orAnd same (bar same n) l m
    | .or l =>
      match b with
      | .or m =>
        match foldBar (bar same n) (.or l) m with
        | none => none
        | some r => some (some r)
      | _ =>
        match orItems (fun x => orU same n x b) l with
        | none => none
        | some (some l') => some (some (.or l'))
        | some none => some (some (if reverse then .or (b :: l) else .or (l ++ [b])))
    | _ => some none
end

/-- Outcome of `RegexRepeat(...)`: the object, or `ValueError`. -/
inductive Rep where
  | ok (r : Rx)
  | valueError
deriving Repr

/-- `RegexRepeat.__init__` after the simplifications, regex.py 836-851. -/
def mkRepeat (r : Rx) (min : Nat) (max : Option Nat) : Rep :=
  match max with
  | none => .ok (.rep r min max)
  | some m =>
    if m < min then .valueError
    else if m = 0 ∨ (min = 1 ∧ m = 1) then .valueError
    else .ok (.rep r min max)

/-- First loop of `optimizeRepeatOr`, regex.py 764-773: the new `rmin`. -/
def fixMin : Nat → List Rx → Nat
  | rmin, [] => rmin
  | _, .empty :: l => fixMin 0 l
  | rmin, .rep _ m _ :: l => fixMin (if m = 0 ∧ rmin = 1 then 0 else rmin) l
  | rmin, _ :: l => fixMin rmin l

/-- Body of the second loop of `optimizeRepeatOr`, regex.py 776-801, for one
item: `none` is `continue`. -/
def fixItem (rmin : Nat) (rmax : Option Nat) : Rx → Option Rep
  | .empty => none
  | .rep r m mx =>
    if m = 0 then
      if rmin = 0 ∨ rmin = 1 then
        if rmax = none ∧ mx = none then some (.ok r)
        else some (mkRepeat r 1 mx)
      else some (.ok (.rep r m mx))
    else if m = 1 then
      if rmax = none ∧ mx = none then some (.ok r) else some (.ok (.rep r m mx))
    else
      if rmax = none ∧ mx = none then some (mkRepeat r m (some m))
      else some (.ok (.rep r m mx))
  | x => some (.ok x)

/-- The second loop of `optimizeRepeatOr`: the new content, or `ValueError`
raised by `RegexRepeat`. -/
def fixItems (rmin : Nat) (rmax : Option Nat) : List Rx → Option (List Rx)
  | [] => some []
  | x :: l =>
    match fixItem rmin rmax x with
    | none => fixItems rmin rmax l
    | some .valueError => none
    | some (.ok y) =>
      match fixItems rmin rmax l with
      | none => none
      | some l' => some (y :: l')

/-- `RegexOr.join`, regex.py 746-752. -/
def orJoin (g : Rx → Rx → Option Rx) : List Rx → Option Rx
  | [] => some .empty
  | r :: l => foldBar g r l

/-- `RegexRepeat(regex, rmin, rmax)`, regex.py 821-851 with `optimizeRepeatOr`
763-803; the outer `none` is a recursion budget of `|` that was too small. -/
def repeat_ (same : List Item → List Item → Bool) (n : Nat) (r : Rx) (rmin : Nat)
    (rmax : Option Nat) : Option Rep :=
  match r with
  | .rep r' m mx =>
    if rmin = 0 ∧ rmax = some 1 then some (mkRepeat r rmin rmax)
    else
      let max := match mx, rmax with
        | some a, some b => if a ≠ 0 ∧ b ≠ 0 then some (b * a) else none
        | _, _ => none
      some (mkRepeat r' (rmin * m) max)
  | .or l =>
    let rmin' := fixMin rmin l
    match fixItems rmin' rmax l with
    | none => some .valueError
    | some l' =>
      match orJoin (bar same n) l' with
      | none => none
      | some r' => some (mkRepeat r' rmin' rmax)
  | _ => some (mkRepeat r rmin rmax)

/-- Result of a length method: a number, `None`, or the `TypeError` of
`None * int`. -/
inductive Len where
  | num (n : Nat)
  | unlimited
  | typeError
deriving Repr, DecidableEq

/-- `RegexAnd._minmaxLength`, regex.py 581-587, adding one more length to a
total; the generator is not advanced after a `None`. -/
def Len.add : Len → Len → Len
  | .num a, .num b => .num (a + b)
  | .num _, b => b
  | a, _ => a

mutual
/-- `minLength`, regex.py 277, 325, 349, 512, 589-595, 738-740, 853-865. -/
def minLength : Rx → Nat
  | .empty => 0
  | .word => 0
  | .start => 0
  | .stop => 0
  | .dot => 1
  | .str t => t.length
  | .range _ _ => 1
  | .and l => minSum l
  | .or l => minMin l
  | .rep r m _ => minLength r * m
def minSum : List Rx → Nat
  | [] => 0
  | r :: l => minLength r + minSum l
/-- Minimum over the items (`RegexOr` has at least two of them). -/
def minMin : List Rx → Nat
  | [] => 0
  | [r] => minLength r
  | r :: s :: l => Nat.min (minLength r) (minMin (s :: l))
end

mutual
/-- `maxLength`, regex.py 123-128, 597-603, 742-744, 867-871:
`self.regex.maxLength() * self.max` fails when the first is `None`. -/
def maxLength : Rx → Len
  | .empty => .num 0
  | .word => .num 0
  | .start => .num 0
  | .stop => .num 0
  | .dot => .num 1
  | .str t => .num t.length
  | .range _ _ => .num 1
  | .and l => maxSum (.num 0) l
  | .or l => maxMax none l
  | .rep r _ mx =>
    match mx with
    | none => .unlimited
    | some m =>
      match maxLength r with
      | .num k => .num (k * m)
      | _ => .typeError
/-- `RegexAnd._minmaxLength` over `maxLength`. -/
def maxSum : Len → List Rx → Len
  | total, [] => total
  | .num t, r :: l => maxSum (Len.add (.num t) (maxLength r)) l
  | x, _ :: _ => x
/-- `RegexOr._minmaxLength` with `max`; the first argument is `value`. -/
def maxMax : Option Nat → List Rx → Len
  | none, [] => .unlimited
  | some v, [] => .num v
  | value, r :: l =>
    match maxLength r with
    | .num k => maxMax (some (match value with | none => k | some v => Nat.max v k)) l
    | x => x
end

end Hachoir.Regex

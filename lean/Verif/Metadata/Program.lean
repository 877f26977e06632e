import Verif.Metadata.Metadata
import Verif.Field.StringField

/-!
# Version information of programs (`metadata/program.py`)

Left out: the headers (`usePE_Header`, `usePE_OptHeader` and `useNE_Header`); how the resource is found; what the metadata do with a value that is assigned.
-/

namespace Hachoir.Metadata.Program
open Hachoir Hachoir.Metadata

/-- A node of the version information: the values of its fields `name` and `value`, if it has them. -/
structure Node where
  name : Option String
  value : Option Text
  deriving DecidableEq, Repr

/-- `KEY_TO_ATTR`, program.py:7-17. -/
def keyToAttr : List (String × String) :=
  [("ProductName", "title"), ("LegalCopyright", "copyright"), ("LegalTrademarks", "copyright"), ("LegalTrademarks1", "copyright"), ("LegalTrademarks2", "copyright"), ("CompanyName", "author"),
    ("BuildDate", "creation_date"), ("FileDescription", "title"), ("ProductVersion", "version")]

/-- `SKIP_KEY`, program.py:18-19. -/
def skipKey : List String := ["InternalName", "OriginalFilename", "FileVersion", "BuildVersion"]

/-- A dictionary, with its keys in order: a key that is there keeps its place. -/
def put (k : String) (v : Text) : List (String × Text) → List (String × Text)
  | [] => [(k, v)]
  | p :: d => if p.1 = k then (k, v) :: d else p :: put k v d

/-- `values[key]`. -/
def look (k : String) : List (String × Text) → Option Text
  | [] => none
  | p :: d => if p.1 = k then some p.2 else look k d

/-- One node, program.py:78-84. -/
def useNode (values : List (String × Text)) (n : Node) : List (String × Text) :=
  match n.value, n.name with
  | some value, some key =>
    let value := Field.stripText (fun c => c == 32 || c == 0) value
    if value = [] then values else put key value values
  | _, _ => values

/-- program.py:76-84. -/
def collect (nodes : List Node) : List (String × Text) := nodes.foldl useNode []

/-- program.py:96-99. -/
def assign (p : String × Text) : List (String × Text) :=
  match keyToAttr.lookup p.1 with
  | some attr => [(attr, p.2)]
  | none => if p.1 ∈ skipKey then [] else [("comment", txt p.1 ++ txt "=" ++ p.2)]

/-- program.py:95-99. -/
def assignAll (values : List (String × Text)) : List (String × Text) := values.flatMap assign

/-- `del values[key]`. -/
def del (k : String) (d : List (String × Text)) : List (String × Text) := d.filter fun p => p.1 ≠ k

/-- The attributes that are set, in order, by `readVersionInfo`, program.py:75-99. -/
def readVersionInfo (nodes : List Node) : List (String × Text) :=
  let values := collect nodes
  match look "ProductName" values, look "FileDescription" values with
  | some product, some description => ("title", description) :: ("title", product) :: assignAll (del "ProductName" (del "FileDescription" values))
  | _, _ => assignAll values

end Hachoir.Metadata.Program

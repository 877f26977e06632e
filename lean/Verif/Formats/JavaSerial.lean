import Verif.Formats.Reader

/-!
# Serialized Java objects (`parser/program/java_serialized.py`)

Left out: descriptions and displays.  Texts are their bytes (UTF-8 is not decoded; the second character of the name of a class of arrays is its
second byte).  What a class needs is computed when its description ends, not for every object (the same unless handles are reset in between,
when the class is not known any more).  `n` bounds the depth of the recursion and the number of rounds of the loops; Python has no such bound.
-/

namespace Hachoir.Formats.JavaSerial
open Hachoir Hachoir.Stream Hachoir.Field Hachoir.Formats

/-- What `gen_values` reads for a class, java_serialized.py:150-175: the value of a field with this type code, or contents up to an end. -/
inductive Step where
  | field (typecode : Nat)
  | contents
  deriving DecidableEq

/-- What the parser needs to know of a field set to read objects and arrays of this class: `SerializedNull`, `SerializedClassDesc`,
`SerializedProxyClassDesc`, other field sets, and a handle that is not known. -/
inductive Info where
  | null
  | klass (name : Bytes) (layout : Except PyErr (List Step))
  | proxy (layout : Except PyErr (List Step))
  | other
  | missing

/-- `handles` and `nextHandleNum`, java_serialized.py:455-461: the field sets by number from 0x7E0000 on.  `epoch` counts the resets. -/
structure Handles where
  epoch : Nat
  infos : List Info

/-- `resetHandles`, java_serialized.py:455-457. -/
def Handles.reset (h : Handles) : Handles := ⟨h.epoch + 1, []⟩

/-- `newHandle`, java_serialized.py:459-461. -/
def Handles.add (h : Handles) (i : Info) : Handles := ⟨h.epoch, h.infos ++ [i]⟩

/-- A class description is known completely when its last field is read: until then its `superClassDesc` cannot be found
(/repo/hachoir/field/generic_field_set.py:321-329).  After a reset it is not found any more. -/
def Handles.finish (h : Handles) (epoch place : Nat) (i : Info) : Handles :=
  if h.epoch = epoch then ⟨h.epoch, h.infos.set place i⟩ else h

/-- `referent`, java_serialized.py:69-71. -/
def Handles.find (h : Handles) (n : Int) : Info :=
  if n < 0x7E0000 then .missing else (h.infos[(n - 0x7E0000).toNat]?).getD .missing

mutual
/-- The field sets of `TYPECODE_TABLE`, java_serialized.py:387-403. -/
inductive Content where
  | null
  | reference (handle : Int)
  | classDesc (name : Bytes) (uid : Int) (flags : List Nat) (fields : List FieldDesc) (annotation : List Content) (superClass : Content)
  | object (classDesc : Content) (values : List Value)
  | string (text : Bytes)
  | array (classDesc : Content) (size : Int) (values : List Value)
  | klass (classDesc : Content)
  | blockData (data : Bytes)
  | endBlock
  | reset
  | blockLong (data : Bytes)
  | exception (object : Content)
  | proxy (names : List Bytes) (annotation : List Content) (superClass : Content)
  | enumConstant (classDesc : Content) (name : Content)

/-- `FieldDesc`, java_serialized.py:80-86. -/
inductive FieldDesc where
  | mk (typecode : Nat) (name : Bytes) (className : Option Content)

/-- The values of fields and elements: integers, `JavaBool`, bits of floats, contents, `WriteObjectContents`. -/
inductive Value where
  | number (v : Int)
  | flag (b : Bool)
  | float (bits : Nat)
  | content (c : Content)
  | contents (l : List Content)
end

/-- The type code of a description of a field. -/
def FieldDesc.typecode : FieldDesc → Nat
  | .mk t _ _ => t

/-- A field set, what it is as a class, and the handles behind it. -/
structure Got where
  content : Content
  info : Info
  handles : Handles

/-- A reader of contents. -/
abbrev Contents : Type := Handles → Rd Got

/-- `isinstance(obj, EndBlockData)`. -/
def isEnd : Content → Bool
  | .endBlock => true
  | _ => false

/-- `gen_values(classDesc['superClassDesc'])`, java_serialized.py:151-157. -/
def layoutOf : Info → Except PyErr (List Step)
  | .null => .ok []
  | .klass _ l => l
  | .proxy l => l
  | .other => .error .missingField
  | .missing => .error .key

/-- `gen_values`, java_serialized.py:156-175: those of the super class, then its own. -/
def ownLayout (flags : List Nat) (fields : List FieldDesc) (super : Info) : Except PyErr (List Step) :=
  match layoutOf super with
  | .error e => .error e
  | .ok l =>
    if flags.getD 3 0 ≠ 0 then .ok (l ++ [.contents])
    else .ok (l ++ fields.map (fun f => .field f.typecode) ++ if flags.getD 5 0 ≠ 0 then [.contents] else [])

/-- One round of `untilEnd`. -/
def untilNext (rest : Handles → Rd (List Content × Handles)) (g : Got) : Rd (List Content × Handles) :=
  if isEnd g.content then Rd.pure ([g.content], g.handles) else Rd.bind (rest g.handles) fun r => Rd.pure (g.content :: r.1, r.2)

/-- `ClassAnnotation` and `WriteObjectContents`, java_serialized.py:113-118 and 184-189. -/
def untilEnd (rd : Contents) : Nat → Handles → Rd (List Content × Handles)
  | 0, _ => Rd.fail .endless
  | n + 1, h => Rd.bind (rd h) (untilNext (untilEnd rd n))

/-- A value from a number. -/
def numbered (h : Handles) (r : Rd Int) : Rd (Value × Handles) := Rd.bind r fun v => Rd.pure (.number v, h)

/-- `VALUE_CLASS_MAP`, java_serialized.py:415-426; `JavaBool`, lines 44-48. -/
def value (rd : Contents) (typecode : Nat) (h : Handles) : Rd (Value × Handles) :=
  if typecode = 0x42 then numbered h (Rd.signed 1 .big)
  else if typecode = 0x43 then Rd.bind (Rd.int 2 .big) fun v => Rd.pure (.number v, h)
  else if typecode = 0x44 then Rd.bind (Rd.int 8 .big) fun v => Rd.pure (.float v, h)
  else if typecode = 0x46 then Rd.bind (Rd.int 4 .big) fun v => Rd.pure (.float v, h)
  else if typecode = 0x49 then numbered h (Rd.signed 4 .big)
  else if typecode = 0x4A then numbered h (Rd.signed 8 .big)
  else if typecode = 0x53 then numbered h (Rd.signed 2 .big)
  else if typecode = 0x5A then Rd.bind (Rd.int 1 .big) fun v => Rd.pure (.flag (v != 0), h)
  else if typecode = 0x5B ∨ typecode = 0x4C then Rd.bind (rd h) fun g => Rd.pure (.content g.content, g.handles)
  else Rd.fail .key

/-- One step of `gen_values`. -/
def step (rd : Contents) (n : Nat) : Step → Handles → Rd (Value × Handles)
  | .field t, h => value rd t h
  | .contents, h => Rd.bind (untilEnd rd n h) fun r => Rd.pure (.contents r.1, r.2)

/-- `ObjectValue.createFields` and the values of arrays, java_serialized.py:177-179 and 247-248. -/
def steps (rd : Contents) (n : Nat) : List Step → Handles → Rd (List Value × Handles)
  | [], h => Rd.pure ([], h)
  | s :: l, h => Rd.bind (step rd n s h) fun r => Rd.bind (steps rd n l r.2) fun q => Rd.pure (r.1 :: q.1, q.2)

/-- The class of a field, java_serialized.py:85-86. -/
def fieldClass (rd : Contents) (typecode : Nat) (name : Bytes) (h : Handles) : Rd (FieldDesc × Handles) :=
  if typecode = 0x5B ∨ typecode = 0x4C then Rd.bind (rd h) fun g => Rd.pure (.mk typecode name (some g.content), g.handles)
  else Rd.pure (.mk typecode name none, h)

/-- `FieldDesc.createFields`, java_serialized.py:82-86. -/
def fieldDesc (rd : Contents) (h : Handles) : Rd (FieldDesc × Handles) :=
  Rd.bind (Rd.text .big .fixed .eightBit (some 1)) fun t => Rd.bind (Rd.text .big .pascal16 .utf8 none) fun name => fieldClass rd ((t.headD 0).toNat) name h

/-- The loop of java_serialized.py:135-136. -/
def fieldDescs (rd : Contents) : Nat → Handles → Rd (List FieldDesc × Handles)
  | 0, h => Rd.pure ([], h)
  | n + 1, h => Rd.bind (fieldDesc rd h) fun r => Rd.bind (fieldDescs rd n r.2) fun q => Rd.pure (r.1 :: q.1, q.2)

/-- The end of a class description. -/
def gotClass (h : Handles) (name : Bytes) (uid : Int) (flags : List Nat) (fields : List FieldDesc) (annotation : List Content) (sup : Got) : Got :=
  ⟨.classDesc name uid flags fields annotation sup.content, .klass name (ownLayout flags fields sup.info),
    sup.handles.finish h.epoch h.infos.length (.klass name (ownLayout flags fields sup.info))⟩

/-- `SerializedClassDesc.createFields`, java_serialized.py:123-138, behind its type code. -/
def classDesc (rd : Contents) (n : Nat) (h : Handles) : Rd Got :=
  Rd.bind (Rd.text .big .pascal16 .utf8 none) fun name =>
  Rd.bind (Rd.signed 8 .big) fun uid =>
  Rd.bind (Rd.bits .big [3, 1, 1, 1, 1, 1]) fun flags =>
  Rd.bind (Rd.signed 2 .big) fun count =>
  Rd.bind (fieldDescs rd count.toNat (h.add .other)) fun fields =>
  Rd.bind (untilEnd rd n fields.2) fun annotation =>
  Rd.bind (rd annotation.2) fun sup => Rd.pure (gotClass h name uid flags fields.1 annotation.1 sup)

/-- The end of a description of proxies. -/
def gotProxy (h : Handles) (names : List Bytes) (annotation : List Content) (sup : Got) : Got :=
  ⟨.proxy names annotation sup.content, .proxy (layoutOf sup.info), sup.handles.finish h.epoch h.infos.length (.proxy (layoutOf sup.info))⟩

/-- `SerializedProxyClassDesc.createFields`, java_serialized.py:332-340. -/
def proxyDesc (rd : Contents) (n : Nat) (h : Handles) : Rd Got :=
  Rd.bind (Rd.signed 4 .big) fun count =>
  Rd.bind (Rd.times (Rd.text .big .pascal16 .utf8 none) count.toNat) fun names =>
  Rd.bind (untilEnd rd n (h.add .other)) fun annotation =>
  Rd.bind (rd annotation.2) fun sup => Rd.pure (gotProxy h names annotation.1 sup)

/-- An `ObjectValue` without fields is an empty field set (/repo/hachoir/field/generic_field_set.py:185-190 and 205-216): at the end of the file it
is left out; elsewhere the object takes the rest of the file as raw bytes (an error here). -/
def noValues (d : Got) : Rd Got :=
  Rd.bind Rd.eof fun e => if e then Rd.pure ⟨.object d.content [], .other, d.handles.add .other⟩ else Rd.fail .stopIteration

/-- The values of an object. -/
def objectValues (rd : Contents) (n : Nat) (d : Got) : Rd Got :=
  match layoutOf d.info with
  | .error e => Rd.fail e
  | .ok [] => noValues d
  | .ok l => Rd.bind (steps rd n l (d.handles.add .other)) fun r => Rd.pure ⟨.object d.content r.1, .other, r.2⟩

/-- `SerializedObject.createFields`, java_serialized.py:194-206, behind its type code. -/
def object (rd : Contents) (n : Nat) (h : Handles) : Rd Got := Rd.bind (rd h) (objectValues rd n)

/-- `self.classDesc.className[1]`, java_serialized.py:245-246: the name of proxies begins with `<P`. -/
def elementCode : Info → Except PyErr Nat
  | .klass (_ :: c :: _) _ => .ok c.toNat
  | .klass _ _ => .error .index
  | .proxy _ => .ok 0x50
  | .missing => .error .key
  | _ => .error .attribute

/-- The values of an array, java_serialized.py:244-248. -/
def arrayValues (rd : Contents) (n : Nat) (d : Got) : Rd Got :=
  Rd.bind (Rd.signed 4 .big) fun size =>
  match elementCode d.info with
  | .error e => Rd.fail e
  | .ok t => Rd.bind (steps rd n (List.replicate size.toNat (.field t)) (d.handles.add .other)) fun r => Rd.pure ⟨.array d.content size r.1, .other, r.2⟩

/-- `SerializedArray.createFields`, java_serialized.py:239-256. -/
def array (rd : Contents) (n : Nat) (h : Handles) : Rd Got := Rd.bind (rd h) (arrayValues rd n)

/-- The bytes of a block: none are no field, java_serialized.py:284-285 and 306-307. -/
def block (n : Nat) : Rd Bytes := if n = 0 then Rd.pure [] else Rd.raw n

/-- The field sets behind their type code, java_serialized.py:51-366: a `SerializedLongString` raises a TypeError (`String` without its size, line 29). -/
def body (rd : Contents) (n : Nat) (typecode : Nat) (h : Handles) : Rd Got :=
  if typecode = 0x70 then Rd.pure ⟨.null, .null, h⟩
  else if typecode = 0x71 then Rd.bind (Rd.signed 4 .big) fun v => Rd.pure ⟨.reference v, h.find v, h⟩
  else if typecode = 0x72 then classDesc rd n h
  else if typecode = 0x73 then object rd n h
  else if typecode = 0x74 then Rd.bind (Rd.text .big .pascal16 .utf8 none) fun t => Rd.pure ⟨.string t, .other, h.add .other⟩
  else if typecode = 0x75 then array rd n h
  else if typecode = 0x76 then Rd.bind (rd h) fun d => Rd.pure ⟨.klass d.content, .other, d.handles.add .other⟩
  else if typecode = 0x77 then Rd.bind (Rd.int 1 .big) fun s => Rd.bind (block s) fun b => Rd.pure ⟨.blockData b, .other, h⟩
  else if typecode = 0x78 then Rd.pure ⟨.endBlock, .other, h⟩
  else if typecode = 0x79 then Rd.pure ⟨.reset, .other, h.reset⟩
  else if typecode = 0x7A then Rd.bind (Rd.int 4 .big) fun s => Rd.bind (block s) fun b => Rd.pure ⟨.blockLong b, .other, h⟩
  else if typecode = 0x7B then
    Rd.bind (Rd.int 1 .big) fun _ => Rd.bind (object rd n h.reset) fun g => Rd.pure ⟨.exception g.content, .other, g.handles.reset⟩
  else if typecode = 0x7C then Rd.bind (Rd.signed 8 .big) fun _ => Rd.fail .type
  else if typecode = 0x7D then proxyDesc rd n h
  else if typecode = 0x7E then Rd.bind (rd h) fun d => Rd.bind (rd (d.handles.add .other)) fun c => Rd.pure ⟨.enumConstant d.content c.content, .other, c.handles⟩
  else Rd.fail .parser

/-- `SerializedContent`, java_serialized.py:406-412. -/
def content : Nat → Contents
  | 0, _ => Rd.fail .endless
  | n + 1, h => Rd.bind (Rd.int 1 .big) fun t => body (content n) n t h

/-- The loop of `JavaSerializedFile.createFields`, java_serialized.py:470-471. -/
def objects (rd : Contents) : Nat → Handles → Rd (List Content)
  | 0, _ => Rd.fail .endless
  | n + 1, h => Rd.bind Rd.eof fun e =>
    if e then Rd.pure [] else Rd.bind (rd h) fun g => Rd.bind (objects rd n g.handles) fun l => Rd.pure (g.content :: l)

/-- `JavaSerializedFile.createFields`, java_serialized.py:463-471: magic, version, objects. -/
def file (n : Nat) : Rd (Nat × Nat × List Content) :=
  Rd.bind (Rd.int 2 .big) fun m => Rd.bind (Rd.int 2 .big) fun v => Rd.bind (objects (content n) n ⟨0, []⟩) fun l => Rd.pure (m, v, l)

end Hachoir.Formats.JavaSerial

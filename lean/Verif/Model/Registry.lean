import Verif.Model.Gather

/-!
# Model of the process registry: /repo/resistics/common.py:703-845 `ResisticsProcess`

Objects are dictionaries of fields with their class.  A class is named by its number in the table of all classes ever
defined, since a later class of the same name is another class.
-/

namespace Resistics

/-- Values: JSON values and processes. -/
inductive PVal where
  | null
  | bool (b : Bool)
  | num (q : ℚ)
  | str (s : String)
  | list (l : List PVal)
  | dict (d : List (String × PVal))
  | proc (cls : ℕ) (fields : List (String × PVal))

/-- What the type of a field asks for: a value that pydantic checks (and converts) by itself, a process, or a list of
processes. -/
inductive FieldKind where
  | plain (check : PVal → Except Err PVal)
  | process
  | processes

/-- A field of a class besides the name: its kind and its default (`none` when it is required). -/
structure ProcField where
  name : String
  kind : FieldKind
  default? : Option PVal

/-- A process class. -/
structure ProcClass where
  className : String
  fields : List ProcField

/-- /repo/resistics/common.py:715-726 `__init_subclass__`: a class that is defined is registered under its name; it is the
class with the next number. -/
def defineClass (st : List ProcClass × List (String × ℕ)) (c : ProcClass) : List ProcClass × List (String × ℕ) :=
  (st.1 ++ [c], dictSet st.2 c.className st.1.length)

/-- The classes and the registry after the given definitions. -/
def defineAll (cs : List ProcClass) : List ProcClass × List (String × ℕ) := cs.foldl defineClass ([], [])

/-- An entry of a dictionary with its name, itself, and what validation as a process and as a list of processes give. -/
structure Entry where
  key : String
  raw : PVal
  asProc : Except Err PVal
  asProcs : Except Err PVal

/-- The value of a field of a new object: the given value after validation, else the default, which is not validated; a
required field that is missing is an error. -/
def fieldValue (entries : List Entry) (f : ProcField) : Except Err (String × PVal) :=
  match entries.find? fun e => e.key = f.name with
  | none => match f.default? with
    | none => .error .value
    | some v => .ok (f.name, v)
  | some e => match f.kind with
    | .plain check => (check e.raw).map fun v => (f.name, v)
    | .process => e.asProc.map fun v => (f.name, v)
    | .processes => e.asProcs.map fun v => (f.name, v)

/-- `cls(**value)` without a name (/repo/resistics/common.py:825-830): the name is that of the class; keys that are no
fields are ignored. -/
def construct (classes : List ProcClass) (cls : ℕ) (entries : List Entry) : Except Err PVal :=
  match classes[cls]? with
  | none => .error .value
  | some c => do
      let fs ← c.fields.mapM (fieldValue entries)
      return .proc cls (("name", .str c.className) :: fs)

/-- /repo/resistics/common.py:810-823 for a dictionary whose entries (without the name) were validated: the class is looked
up by name, and any exception in making the object becomes a `ValueError`. -/
def fromDict (classes : List ProcClass) (types : List (String × ℕ)) (name? : Option PVal) (entries : List Entry) :
    Except Err PVal :=
  match name? with
  | none => .error .key
  | some (.str n) => match types.lookup n with
    | none => .error .value
    | some cls => match construct classes cls (entries.filter fun e => e.key ≠ "name") with
      | .ok v => .ok v
      | .error _ => .error .value
  | some _ => .error .value

/-- The first value of a key. -/
def nameOf : List (String × PVal) → Option PVal
  | [] => none
  | q :: l => if q.1 = "name" then some q.2 else nameOf l

mutual
/-- /repo/resistics/common.py:733-823 `ResisticsProcess.validate`.  The class it is called on is not used for anything but
the registry, which all processes share.  Simplification: names are strings; the removal of the name from the caller's
dictionary is `afterValidate`. -/
def validateProcess (classes : List ProcClass) (types : List (String × ℕ)) : PVal → Except Err PVal
  | .null => .error .value
  | .bool _ => .error .value
  | .num _ => .error .value
  | .str _ => .error .value
  | .list _ => .error .value
  | .dict d => fromDict classes types (nameOf d) (validateEntries classes types d)
  | .proc c f => .ok (.proc c f)

/-- Validation as `List[ResisticsProcess]`. -/
def validateProcesses (classes : List ProcClass) (types : List (String × ℕ)) : PVal → Except Err PVal
  | .null => .error .value
  | .bool _ => .error .value
  | .num _ => .error .value
  | .str _ => .error .value
  | .list l => (validateAll classes types l).map .list
  | .dict _ => .error .value
  | .proc _ _ => .error .value

/-- Validation of all processes of a list. -/
def validateAll (classes : List ProcClass) (types : List (String × ℕ)) : List PVal → Except Err (List PVal)
  | [] => .ok []
  | v :: l => do
      let x ← validateProcess classes types v
      let xs ← validateAll classes types l
      return x :: xs

/-- The entries of a dictionary. -/
def validateEntries (classes : List ProcClass) (types : List (String × ℕ)) : List (String × PVal) → List Entry
  | [] => []
  | (k, v) :: l =>
      ⟨k, v, validateProcess classes types v, validateProcesses classes types v⟩ :: validateEntries classes types l
end

/-- `value.pop("name")` (/repo/resistics/common.py:819): what is left of the caller's dictionary after validation.  Nested
dictionaries lose their names as well; only the outer one is modelled. -/
def afterValidate : PVal → PVal
  | .dict d => .dict (d.filter fun q => q.1 ≠ "name")
  | v => v

mutual
/-- `process.dict()`, and the values of `process.json()` read again: processes become dictionaries. -/
def PVal.toDict : PVal → PVal
  | .null => .null
  | .bool b => .bool b
  | .num q => .num q
  | .str s => .str s
  | .list l => .list (PVal.toDictList l)
  | .dict d => .dict (PVal.toDictEntries d)
  | .proc _ f => .dict (PVal.toDictEntries f)

/-- See `PVal.toDict`. -/
def PVal.toDictList : List PVal → List PVal
  | [] => []
  | v :: l => v.toDict :: PVal.toDictList l

/-- See `PVal.toDict`. -/
def PVal.toDictEntries : List (String × PVal) → List (String × PVal)
  | [] => []
  | (k, v) :: l => (k, v.toDict) :: PVal.toDictEntries l
end

/-- A configuration (/repo/resistics/config.py:28-151) or another model with processes as fields, made from a dictionary:
the fields are validated like those of a process. -/
def makeModel (classes : List ProcClass) (types : List (String × ℕ)) (fields : List ProcField)
    (d : List (String × PVal)) : Except Err (List (String × PVal)) :=
  fields.mapM (fieldValue (validateEntries classes types d))

end Resistics

import Verif.Model.Numeric
set_option autoImplicit false

/-!
# Model of the save hook for notebooks (scripts/jupyter_output.py) and of `strip_consts` (examples/plotting.py:192-208)
-/

namespace SafeLearning

/-! ## Save hook -/

/-- A JSON value as Python sees it, the type of `model` (scripts/jupyter_output.py:1). A dictionary is the list of its items in insertion order. Simplification: numbers are integers, no booleans. -/
inductive Json where
  | null
  | num (n : ℤ)
  | str (s : String)
  | list (l : List Json)
  | dict (items : List (String × Json))

/-- The value of a key in the list of items, for `d[key]` (scripts/jupyter_output.py:4-11). -/
def findKey (key : String) : List (String × Json) → Option Json
  | [] => none
  | (k, v) :: items => if k = key then some v else findKey key items

/-- The items after `d[key] = value`: an existing key keeps its place, a new key goes to the end (scripts/jupyter_output.py:13-14). -/
def setKey (key : String) (value : Json) : List (String × Json) → List (String × Json)
  | [] => [(key, value)]
  | (k, v) :: items => if k = key then (k, value) :: items else (k, v) :: setKey key value items

/-- `d[key]` (scripts/jupyter_output.py:4, 7, 10, 11). Simplification: the other types raise `TypeError`. -/
def Json.get (d : Json) (key : String) : Except PyErr Json :=
  match d with
  | .dict items => match findKey key items with
    | some v => .ok v
    | none => .error .keyError
  | _ => .error .typeError

/-- `d[key] = value` for a dictionary (scripts/jupyter_output.py:13-14). -/
def Json.set (d : Json) (key : String) (value : Json) : Json :=
  match d with
  | .dict items => .dict (setKey key value items)
  | d => d

/-- `v == s` for a string `s` (scripts/jupyter_output.py:4, 11). -/
def Json.isStr (v : Json) (s : String) : Bool :=
  match v with
  | .str t => t == s
  | _ => false

/-- `v == n` for a number `n` (scripts/jupyter_output.py:7). -/
def Json.isNum (v : Json) (n : ℤ) : Bool :=
  match v with
  | .num m => m == n
  | _ => false

/-- The body of the loop for a code cell (scripts/jupyter_output.py:13-14). -/
def scrubCell (cell : Json) : Json := (cell.set "outputs" (.list [])).set "execution_count" .null

/-- The loop over the cells (scripts/jupyter_output.py:10-14): the cells afterwards, and the exception that ended the loop. Simplification: the cells are
different objects. -/
def scrubCells : List Json → List Json × Option PyErr
  | [] => ([], none)
  | cell :: cells =>
    match cell.get "cell_type" with
    | .error e => (cell :: cells, some e)
    | .ok t =>
      let rest := scrubCells cells
      ((if t.isStr "code" then scrubCell cell else cell) :: rest.1, rest.2)

/-- `scrub_output_pre_save(model)` (scripts/jupyter_output.py:1-14): the model afterwards, and the exception raised. Simplification: `cells` is a list, otherwise
`TypeError`. -/
def scrubOutput (model : Json) : Json × Option PyErr :=
  match model.get "type" with
  | .error e => (model, some e)
  | .ok type =>
    if !type.isStr "notebook" then (model, none)
    else match model.get "content" with
      | .error e => (model, some e)
      | .ok content => match content.get "nbformat" with
        | .error e => (model, some e)
        | .ok version =>
          if !version.isNum 4 then (model, none)
          else match content.get "cells" with
            | .error e => (model, some e)
            | .ok (.list cells) =>
              let r := scrubCells cells
              (model.set "content" (content.set "cells" (.list r.1)), r.2)
            | .ok _ => (model, some .typeError)

/-! ## Constants of a graph -/

/-- The value of an attribute: unset, a tensor with its content and its other fields (type, shape), or something else (examples/plotting.py:203-207). -/
inductive AttrValue where
  | unset
  | tensor (fields : String) (content : List UInt8)
  | other (raw : String)
  deriving DecidableEq

/-- A node of a `GraphDef` (examples/plotting.py:199-202). -/
structure GraphNode where
  name : String
  op : String
  input : List String
  attr : List (String × AttrValue)
  deriving DecidableEq

/-- The decimal digits of a number, as ASCII codes: `%d` (examples/plotting.py:207). -/
def decimal (n : ℕ) : List UInt8 :=
  if n < 10 then [(48 + n).toUInt8] else decimal (n / 10) ++ [(48 + n % 10).toUInt8]
decreasing_by omega

/-- The ASCII codes of a string: `str.encode` (examples/plotting.py:207). -/
def ascii (s : String) : List UInt8 := s.toList.map fun c => c.toNat.toUInt8

/-- `str.encode("<stripped %d bytes>" % size)` (examples/plotting.py:207). -/
def strippedText (size : ℕ) : List UInt8 := ascii "<stripped " ++ decimal size ++ ascii " bytes>"

/-- `attr[key]` of a protobuf map: an absent key is added with an unset value (examples/plotting.py:204). -/
def touchAttr (key : String) (attr : List (String × AttrValue)) : List (String × AttrValue) :=
  if key ∈ attr.map Prod.fst then attr else attr ++ [(key, .unset)]

/-- Lines 204-207 on the value (examples/plotting.py:204-207): reading `.tensor` of another kind of value gives an empty tensor, assigning its content makes
the value a tensor. -/
def stripValue (maxSize : ℤ) : AttrValue → AttrValue
  | .tensor fields content => if maxSize < (content.length : ℤ) then .tensor fields (strippedText content.length) else .tensor fields content
  | v => if maxSize < 0 then .tensor "" (strippedText 0) else v

/-- One node of the loop (examples/plotting.py:200-207). -/
def stripNode (maxSize : ℤ) (n : GraphNode) : GraphNode :=
  if n.op = "Const" then
    { n with attr := (touchAttr "value" n.attr).map fun kv => if kv.1 = "value" then (kv.1, stripValue maxSize kv.2) else kv }
  else n

/-- `strip_consts(graph_def, max_const_size)` (examples/plotting.py:192-208). -/
def stripConsts (maxSize : ℤ) (nodes : List GraphNode) : List GraphNode := nodes.map (stripNode maxSize)

end SafeLearning

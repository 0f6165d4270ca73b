import Mathlib.Data.List.Basic
/-!
# XML turned into dictionaries (dascore/utils/xml.py)

Parsing of the text (`ElementTree.fromstring`) is not modelled: elements are given as trees. Attributes of elements, and text beside children, are ignored
by the code and left out or unused here.
-/
namespace Verif

/-- An element: its tag, its text (`None` if there is none), its children. -/
inductive XmlElement where
  | node (tag : String) (text : Option String) (children : List XmlElement)

namespace XmlElement
def tag : XmlElement → String | node t _ _ => t
def text : XmlElement → Option String | node _ x _ => x
def children : XmlElement → List XmlElement | node _ _ cs => cs
end XmlElement

/-- What elements are turned into. Dictionaries are lists of keys and values in the order in which the keys were added. -/
inductive XmlValue where
  | text (t : Option String)
  | list (l : List XmlValue)
  | dict (d : List (String × XmlValue))

/-- `result[key] = value` for a key which is there: it keeps its place. -/
def replaceKey (key : String) (v : XmlValue) : List (String × XmlValue) → List (String × XmlValue)
  | [] => []
  | x :: d => if x.1 = key then (key, v) :: d else x :: replaceKey key v d

/-- xml.py 29-35: the value of one child is added. -/
def addChild (d : List (String × XmlValue)) (key : String) (v : XmlValue) : List (String × XmlValue) :=
  match d.lookup key with
  | some (.list l) => replaceKey key (.list (l ++ [v])) d
  | some x => replaceKey key (.list [x, v]) d
  | none => d ++ [(key, v)]

mutual
/-- xml.py 14-36, `_element_to_dict`. -/
def xmlValue : XmlElement → XmlValue
  | .node _ t [] => .text t
  | .node _ _ (c :: cs) => .dict (xmlChildren [] (c :: cs))
/-- xml.py 27-35: the loop over the children. -/
def xmlChildren : List (String × XmlValue) → List XmlElement → List (String × XmlValue)
  | d, [] => d
  | d, c :: cs => xmlChildren (addChild d c.tag (xmlValue c)) cs
end

end Verif

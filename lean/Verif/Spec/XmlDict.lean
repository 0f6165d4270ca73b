import Verif.Model.XmlDict
/-! # C110: what a dictionary made of an element holds -/
namespace Spec
open Verif

/-- What is found under a tag, given what belongs there: nothing, the value itself, or a list. -/
def underTag : List XmlValue → Option XmlValue
  | [] => none
  | [v] => some v
  | vs => some (.list vs)

mutual
/-- The texts of the elements without children, each with the tags on the way to it. -/
def XmlElement.texts : XmlElement → List (List String × Option String)
  | .node _ t [] => [([], t)]
  | .node _ _ (c :: cs) => childTexts (c :: cs)
def childTexts : List XmlElement → List (List String × Option String)
  | [] => []
  | c :: cs => (XmlElement.texts c).map (fun x => (c.tag :: x.1, x.2)) ++ childTexts cs
end

mutual
/-- The texts in a value, each with the keys on the way to it. -/
def XmlValue.texts : XmlValue → List (List String × Option String)
  | .text t => [([], t)]
  | .list l => listTexts l
  | .dict d => dictTexts d
def listTexts : List XmlValue → List (List String × Option String)
  | [] => []
  | v :: l => XmlValue.texts v ++ listTexts l
def dictTexts : List (String × XmlValue) → List (List String × Option String)
  | [] => []
  | (k, v) :: d => (XmlValue.texts v).map (fun x => (k :: x.1, x.2)) ++ dictTexts d
end

end Spec

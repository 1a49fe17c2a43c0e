import Verif.Model.XCal

/-!
# Indenting XML

`toString` of xmlutils.py, up to `XML.tostring`, which is that of `ElementTree`.
-/

namespace PyCal
namespace XCal

/-- An element with its text, its tail (the text behind it) and its children. -/
inductive XNode where
  | node (tag : List Char) (text : XText) (tail : Option (List Char)) (children : List XNode)
deriving Repr

namespace XNode

/-- The elements that `writeXML` makes have no tails. -/
def ofXml : Xml → XNode
  | .elem tag text children => .node tag text none (children.map ofXml)

/-- The characters that `strip` takes away. -/
def isBlank (c : Char) : Bool := c ∈ [' ', '\t', '\n', '\x0b', '\x0c', '\r']

/-- `"\n" + " " * n * INDENT`, xmlutils.py:36, 42. -/
def newline (n : Nat) : List Char := '\n' :: List.replicate (n * 2) ' '

def setTail (t : List Char) : XNode → XNode
  | .node tag text _ children => .node tag text (some t) children

/-- `node.getchildren()[-1].tail = …`, xmlutils.py:41-42. -/
def setLast (t : List Char) : List XNode → List XNode
  | [] => []
  | [c] => [c.setTail t]
  | c :: cs => c :: setLast t cs

mutual
/-- `_indentNode`, xmlutils.py:31-42.  `none`: the text is a floating point number, which has no `strip`. -/
def indent (level : Nat) : XNode → Option XNode
  | .node tag text tail children =>
    match text with
    | .float _ => none
    | .none => indentBlank level tag .none tail children
    | .str s => if s.any fun c => !isBlank c then some (.node tag (.str s) tail children)
        else indentBlank level tag (.str s) tail children

/-- The branch for a node without a text, xmlutils.py:35-42. -/
def indentBlank (level : Nat) (tag : List Char) (text : XText) (tail : Option (List Char)) :
    List XNode → Option XNode
  | [] => some (.node tag text tail [])
  | c :: cs => (indentAll (level + 1) (c :: cs)).map fun l =>
      .node tag (.str (newline (level + 1))) tail (setLast (newline level) l)

/-- The loop over the children, xmlutils.py:38-40. -/
def indentAll (level : Nat) : List XNode → Option (List XNode)
  | [] => some []
  | c :: cs => (indent level c).bind fun c' => (indentAll level cs).map fun cs' =>
      c'.setTail (newline level) :: cs'
end

/-- `toString`, xmlutils.py:24-47: the tree that is given to `XML.tostring`. -/
def toText (x : Xml) : Option XNode := indent 0 (ofXml x)

end XNode
end XCal
end PyCal

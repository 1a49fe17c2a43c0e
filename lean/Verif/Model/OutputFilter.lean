import Verif.Model.ContainerJSON
import Verif.Model.XCal

/-!
# Writing through an output filter

`outputfilter.py`, and the functions with `Filtered` in their name in `componentbase.py` and `property.py`.
-/

namespace PyCal
namespace OFilter
open Cont XCal

/-- `OutputFilter`, outputfilter.py:20-25.  A dictionary is a list with the last member added first. -/
inductive Filter where
  | mk (type : List Char) (allSubs : Bool) (subs : Option (List (List Char × Filter)))
      (allProps : Bool) (props : Option (List (List Char × Bool)))

namespace Filter

/-- `__init__`, outputfilter.py:20-25. -/
def new (type : List Char) : Filter := .mk type false none false none

/-- `getType`, outputfilter.py:27-28. -/
def type : Filter → List Char
  | .mk t _ _ _ _ => t

/-- `setAllSubComponents`, outputfilter.py:37-39. -/
def setAllSubs : Filter → Filter
  | .mk t _ _ ap ps => .mk t true none ap ps

/-- `addSubComponent`, outputfilter.py:41-45. -/
def addSub : Filter → Filter → Filter
  | .mk t as ss ap ps, comp => .mk t as (some ((comp.type, comp) :: ss.getD [])) ap ps

/-- `setAllProperties`, outputfilter.py:64-66. -/
def setAllProps : Filter → Filter
  | .mk t as ss _ _ => .mk t as ss true none

/-- `addProperty`, outputfilter.py:68-72. -/
def addProp (name : List Char) (novalue : Bool) : Filter → Filter
  | .mk t as ss ap ps => .mk t as ss ap (some ((name, novalue) :: ps.getD []))

/-- `isAllSubComponents`, outputfilter.py:34-35. -/
def isAllSubs : Filter → Bool
  | .mk _ as _ _ _ => as

/-- `hasSubComponentFilters`, outputfilter.py:52-53. -/
def hasSubFilters : Filter → Bool
  | .mk _ _ ss _ _ => ss.isSome

/-- `testSubComponent`, outputfilter.py:48-50. -/
def testSub (oftype : List Char) : Filter → Bool
  | .mk _ as ss _ _ => as || (ss.bind fun l => l.lookup oftype).isSome

/-- `getSubComponentFilter`, outputfilter.py:55-59. -/
def getSub (type : List Char) : Filter → Option Filter
  | .mk _ _ ss _ _ => ss.bind fun l => l.lookup type

/-- `isAllProperties`, outputfilter.py:61-62. -/
def isAllProps : Filter → Bool
  | .mk _ _ _ ap _ => ap

/-- `hasPropertyFilters`, outputfilter.py:74-75. -/
def hasPropFilters : Filter → Bool
  | .mk _ _ _ _ ps => ps.isSome

/-- `testPropertyValue`, outputfilter.py:79-88; the second part is only used if the first is true. -/
def testPropertyValue (name : List Char) : Filter → Bool × Bool
  | .mk _ _ _ ap ps =>
    if ap then (true, false)
    else match ps with
      | none => (false, false)
      | some l =>
        match l.lookup name with
        | some novalue => (true, novalue)
        | none => (false, false)

end Filter

/-- What a client does with a new filter. -/
inductive Call where
  | allSubs
  | addSub (comp : Filter)
  | allProps
  | addProp (name : List Char) (novalue : Bool)

def Call.run (f : Filter) : Call → Filter
  | .allSubs => f.setAllSubs
  | .addSub comp => f.addSub comp
  | .allProps => f.setAllProps
  | .addProp name novalue => f.addProp name novalue

/-- The filter after the calls. -/
def made (type : List Char) (calls : List Call) : Filter := calls.foldl Call.run (.new type)

/-- `generateFiltered` of a property, property.py:329-334, and in the same way `writeXMLFiltered` (397-402)
and `writeJSONFiltered` (479-484): the property that is written, if any.  `bare` is the property without
its value: `generateValue` (337-358), `generateValueXML` (405-420) and `generateValueJSON` (486-503) with
`novalue` write what they write if `mValue` is `None`. -/
def filteredProp (bare : CProp → CProp) (f : Filter) (p : CProp) : Option CProp :=
  match f.testPropertyValue p.key with
  | (true, true) => some (bare p)
  | (true, false) => some p
  | (false, _) => none

/-- The properties written by `writePropertiesFiltered`, componentbase.py:572-585, and in the same way
`writePropertiesFilteredXML` (598-613) and `writePropertiesFilteredJSON` (624-637). -/
def filteredProps (bare : CProp → CProp) (order : List (List Char)) (f : Filter) (ps : List CProp) :
    List CProp :=
  if f.isAllProps then writtenProps order ps
  else if f.hasPropFilters then (writtenProps order ps).filterMap (filteredProp bare f)
  else []

/-- `generateFiltered`, componentbase.py:284-297, with `writeComponentsFiltered` (405-413): the lines
written, not folded.  `none` is an exception: `self.sortedcomponents` does not exist. -/
def generateFiltered (bare : CProp → CProp) (o : Order) (f : Filter) : Component → Option (List (List Char))
  | .mk t ps cs =>
    let lines := fun subs => ("BEGIN:".toList ++ t) ::
      ((filteredProps bare (o.keyOrder t) f ps).map CProp.text ++ subs ++ ["END:".toList ++ t])
    if f.isAllSubs then
      match generateAll o cs, sortedTagged o t (tag cs) with
      | some subs, some l => some (lines (l.flatMap fun x => subs.getD x.1 []))
      | _, _ => none
    else if f.hasSubFilters then none
    else some (lines [])

/-- `writeJSONFiltered`, componentbase.py:359-369, with `writeComponentsFilteredJSON` (445-455).  `none` is
an exception. -/
def writeJSONFiltered {J : Type} (bare : CProp → CProp) (env : JEnv J) (o : Order) (f : Filter) :
    Component → Option (JComp J)
  | .mk t ps cs =>
    match (filteredProps bare (o.keyOrder t) f ps).mapM env.write with
    | none => none
    | some js =>
      if cs.isEmpty then some (.mk (PropJSON.lower t) js [])
      else if f.isAllSubs then
        (writeJSON env o (.mk t ps cs)).map fun j => .mk (PropJSON.lower t) js [j]
      else if f.hasSubFilters then none
      else some (.mk (PropJSON.lower t) js [])

/-- `writeXMLFiltered`, componentbase.py:310-317, with `writeComponentsFilteredXML` (424-436).  `none` is an
exception.  This is for components other than a `Calendar`, whose own `writeXML` (calendar.py) does not take
the arguments given to it by `writeComponentsFilteredXML`. -/
def writeXMLFiltered (bare : CProp → CProp) (write : CProp → Option Xml) (o : Order) (f : Filter) :
    Component → Option Xml
  | .mk t ps cs =>
    match (filteredProps bare (o.keyOrder t) f ps).mapM write with
    | none => none
    | some xs =>
      let elem := fun subs => Xml.elem (makeTag t) .none (propertiesElem xs :: componentsElem cs subs)
      if cs.isEmpty then some (elem [])
      else if f.isAllSubs then (compElem write o (.mk t ps cs)).map fun x => elem [x]
      else if f.hasSubFilters then none
      else some (elem [])

end OFilter
end PyCal

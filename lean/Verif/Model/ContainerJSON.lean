import Verif.Model.Container
import Verif.Model.PropertyJSON

/-!
# Components in jCal

`ComponentBase.parseJSON` and `writeJSON` (componentbase.py).  A property is as in `Model/Container.lean`;
what is written for it and read from it is a parameter (`Model/PropertyJSON.lean` has it for some types).
-/

namespace PyCal
namespace Cont

/-- The array `[type, properties, components]`. -/
inductive JComp (J : Type) where
  | mk (type : List Char) (props : List J) (subs : List (JComp J))

/-- `Property.writeJSON` (`none` is an exception), `Property.parseJSON` (`none` is `InvalidProperty`), and
`finalise` of a component (`none` is an exception). -/
structure JEnv (J : Type) where
  container : List Char
  write : CProp → Option J
  read : J → Option CProp
  finalise : Component → Option Component

mutual
/-- `writeJSON`, componentbase.py:346-357, `writePropertiesJSON` (615-622) and `writeComponentsJSON`
(438-443).  `none` is an exception. -/
def writeJSON {J : Type} (env : JEnv J) (o : Order) : Component → Option (JComp J)
  | .mk t ps cs =>
    match (writtenProps (o.keyOrder t) ps).mapM env.write, writeAllJSON env o cs,
        sortedTagged o t (tag cs) with
    | some js, some subs, some l =>
      some (.mk (PropJSON.lower t) js (l.filterMap fun x => subs[x.1]?))
    | _, _, _ => none

def writeAllJSON {J : Type} (env : JEnv J) (o : Order) : List Component → Option (List (JComp J))
  | [] => some []
  | c :: cs =>
    match writeJSON env o c, writeAllJSON env o cs with
    | some j, some js => some (j :: js)
    | _, _ => none
end

/-- `addProperty`, `addComponent` and `finalise` in `parseJSON`, componentbase.py:334-338: `ps` and `cs` are
what the properties and components are read as. -/
def finishJSON {J : Type} (env : JEnv J) (t : List Char) (ps : Option (List CProp))
    (cs : Option (List Component)) : Option Component :=
  match ps, cs with
  | some ps, some cs => if cs.all (fun c => admits t c.type) then env.finalise (.mk t ps cs) else none
  | _, _ => none

mutual
/-- `parseJSON` of a component, componentbase.py:319-343; `none` is any of the exceptions. -/
def readJSON {J : Type} (env : JEnv J) : JComp J → Option Component
  | .mk t js subs => finishJSON env (makeType (PropText.upper t)) (js.mapM env.read) (readAllJSON env subs)

def readAllJSON {J : Type} (env : JEnv J) : List (JComp J) → Option (List Component)
  | [] => some []
  | j :: js =>
    match readJSON env j, readAllJSON env js with
    | some c, some cs => some (c :: cs)
    | _, _ => none
end

/-- `parseJSONData` after `json.loads`, containerbase.py:213-221: the container is given to `parseJSON`,
and the type in the array is not looked at. -/
def readRootJSON {J : Type} (env : JEnv J) : JComp J → Option Component
  | .mk _ js subs => finishJSON env env.container (js.mapM env.read) (readAllJSON env subs)

/-- `Card.parseMultipleJSONData` after `json.loads`, vcard/card.py:158-171: an array of cards.  `none` is an
exception. -/
def readCardsJSON {J : Type} (env : JEnv J) (js : List (JComp J)) : Option (List Component) :=
  js.mapM (readRootJSON env)

end Cont
end PyCal

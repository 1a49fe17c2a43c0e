/-!
# Where a path leads

An absolute path names a place: the directories one goes through from the root, when `.` stays and
`..` goes up.  Symbolic links are not considered.
-/

namespace Spec

/-- Going to `name` from the place `at_`. -/
def pathStep (at_ : List (List Char)) (name : List Char) : List (List Char) :=
  if name = [] ∨ name = ['.'] then at_
  else if name = ['.', '.'] then at_.dropLast
  else at_ ++ [name]

/-- Reading a path from left to right; `name` is the part of a name read so far. -/
def pathWalk (at_ : List (List Char)) (name : List Char) : List Char → List (List Char)
  | [] => pathStep at_ name
  | c :: s => if c = '/' then pathWalk (pathStep at_ name) [] s else pathWalk at_ (name ++ [c]) s

/-- The place an absolute path names. -/
def place (path : List Char) : List (List Char) := pathWalk [] [] path

/-- A path leads to the directory `dir` or to a place inside it. -/
def Inside (dir path : List Char) : Prop := place dir <+: place path

end Spec

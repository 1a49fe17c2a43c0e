import Mathlib.Data.Int.Bitwise
import Verif.Model.DateTime

/-!
# Packed dates and the table of a month

The functions on dates as single integers and `getMonthTable` of utils.py.
-/

namespace PyCal
namespace Packed

/-- `packDate`, utils.py:418-419. -/
def packDate (year month day : Int) : Int :=
  Int.lor (Int.lor (year <<< (16 : Nat)) (month <<< (8 : Nat))) (day + 128)

/-- `unpackDateYear`, utils.py:428-429, and line 423 of `unpackDate`. -/
def unpackYear (data : Int) : Int := Int.land data 0xFFFF0000 >>> (16 : Nat)

/-- `unpackDateMonth`, utils.py:432-433, and line 424 of `unpackDate`. -/
def unpackMonth (data : Int) : Int := Int.land data 0x0000FF00 >>> (8 : Nat)

/-- `unpackDateDay`, utils.py:436-437, and line 425 of `unpackDate`. -/
def unpackDay (data : Int) : Int := Int.land data 0xFF - 128

/-- `unpackDate`, utils.py:422-425: what the three places of the list `unpacked` are set to. -/
def unpackDate (data : Int) : Int × Int × Int :=
  (unpackYear data, unpackMonth data, unpackDay data)

/-- An element of the list `table` of `getMonthTable`: a number or a list of numbers. -/
inductive Cell where
  | num (n : Int)
  | row (l : List Int)

/-- `table[row][col] = x`, utils.py:470: a number has no elements (`TypeError`), and there is no row after the last one. -/
def setCell (table : List Cell) (row col : Nat) (x : Int) : Option (List Cell) :=
  match table[row]? with
  | some (.row l) => if col < l.length then some (table.set row (.row (l.set col x))) else none
  | _ => none

/-- The loop of `getMonthTable`, utils.py:463-479, without the index of today, from `day` on for `n` days: the table is
extended by seven zeros at the start of a row.  `row` is the number of rows so far. -/
def fill (year month : Int) : Nat → Int → Nat → Nat → List Cell → Option (List Cell × Nat × Nat)
  | 0, _, col, row, table => some (table, col, row)
  | n + 1, day, col, row, table =>
    let new := decide (col = 0 ∨ day = 1)
    let table := if new then table ++ List.replicate 7 (.num 0) else table
    let row := if new then row + 1 else row
    (setCell table (row - 1) col (packDate year month day)).bind fun table =>
      fill year month n (day + 1) (if col + 1 > 6 then 0 else col + 1) row table

/-- `getMonthTable`, utils.py:441-510, up to the end of the first loop (what follows is left out, as the loop raises), for a
month from 1 to 12; `initialCol` is `temp.getDayOfWeek() - weekstart`, plus 7 if it is negative. -/
def monthTable (month year : Int) (initialCol : Nat) : Option (List Cell × Nat × Nat) :=
  fill year month (daysInMonth month year).toNat 1 initialCol 0 []

end Packed
end PyCal

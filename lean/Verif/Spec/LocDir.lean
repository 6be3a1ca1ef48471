import Verif.Model.PyNum

/-!
# Documented location and direction entries

Taken from the documentation of `_get_locations` / `_get_directions` and the user guide: a
number, a list, a range, `all`, `top`, `roof`.
-/

namespace Verif.LocDir

/-- A single location. -/
inductive Place where
  | num (n : Int)
  | top
  | roof

/-- How a place is written. -/
def Place.text : Place → Str
  | .num n => intStr n
  | .top => str "top"
  | .roof => str "roof"

/-- The location it stands for in a building with `stories` stories. -/
def Place.at (stories : Int) : Place → Int
  | .num n => n
  | .top => stories
  | .roof => stories + 1

/-- A documented location entry. -/
inductive LocEntry where
  | one (p : Place)
  | list (n : Int) (ns : List Int) (two : ns ≠ [])
  | range (lo hi : Place)
  | all

/-- How the entry is written. -/
def LocEntry.text : LocEntry → Str
  | .one p => p.text
  | .list n ns _ => joinChar ',' ((n :: ns).map intStr)
  | .range lo hi => lo.text ++ str "--" ++ hi.text
  | .all => str "all"

/-- The locations the entry stands for, in order.  `lo--hi` are all integers from `lo` to
`hi`. -/
def LocEntry.Means (stories : Int) : LocEntry → List Int → Prop
  | .one p, l => l = [p.at stories]
  | .list n ns _, l => l = n :: ns
  | .range lo hi, l => l.Pairwise (· < ·) ∧ ∀ k, k ∈ l ↔ lo.at stories ≤ k ∧ k ≤ hi.at stories
  | .all, l => l.Pairwise (· < ·) ∧ ∀ k, k ∈ l ↔ 1 ≤ k ∧ k ≤ stories

/-- A documented direction entry. -/
inductive DirEntry where
  | one (n : Int)
  | list (n : Int) (ns : List Int) (two : ns ≠ [])
  | range (lo hi : Int)

def DirEntry.text : DirEntry → Str
  | .one n => intStr n
  | .list n ns _ => joinChar ',' ((n :: ns).map intStr)
  | .range lo hi => intStr lo ++ str "--" ++ intStr hi

def DirEntry.Means : DirEntry → List Int → Prop
  | .one n, l => l = [n]
  | .list n ns _, l => l = n :: ns
  | .range lo hi, l => l.Pairwise (· < ·) ∧ ∀ k, k ∈ l ↔ lo ≤ k ∧ k ≤ hi

end Verif.LocDir

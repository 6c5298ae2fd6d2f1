/-!
# Specification: what a path denotes

Components `.` and empty ones mean nothing.  Where the others lead is up to the directory tree: any tree, with `..` and
with symbolic links to directories.
-/

namespace Bdlib.Spec

/-- The text between slashes. -/
def pieces : List UInt8 → List (List UInt8)
  | [] => [[]]
  | c :: r =>
    if c = 47 then [] :: pieces r
    else match pieces r with
      | [] => [[c]]
      | p :: ps => (c :: p) :: ps

/-- A directory tree: its directories, where paths start (the root, or the current directory), and where each component leads
(up for `..`, to its target for a symbolic link; for a name that is no directory it may lead to a place that does not exist). -/
class Tree where
  Dir : Type
  [dec : DecidableEq Dir]
  root : Dir
  here : Dir
  step : Dir → List UInt8 → Dir

instance [t : Tree] : DecidableEq t.Dir := t.dec

/-- A directory entry: the directory, and the name in it. -/
structure Entry [Tree] where
  dir : Tree.Dir
  name : List UInt8
  deriving DecidableEq

/-- The directory entry a path denotes. -/
def entryOf [Tree] (path : List UInt8) : Entry where
  dir := ((pieces path).dropLast.filter (fun p => p ≠ [] ∧ p ≠ [46])).foldl Tree.step (if path.head? = some 47 then Tree.root else Tree.here)
  name := (pieces path).getLast?.getD []

/-- For examples: a tree without symbolic links, in which `..` leads up.  A directory is the path to it, from the root or from the
current directory. -/
@[reducible] def plainTree : Tree where
  Dir := Bool × List (List UInt8)
  root := (true, [])
  here := (false, [])
  step d p := (d.1, if p = [46, 46] ∧ d.2 ≠ [] ∧ d.2.getLast? ≠ some [46, 46] then d.2.dropLast else if p = [46, 46] ∧ d.1 = true then d.2 else d.2 ++ [p])

/-- The same with a symbolic link `l` in the current directory, to the directory `d/e` there. -/
@[reducible] def linkTree : Tree where
  Dir := Bool × List (List UInt8)
  root := plainTree.root
  here := plainTree.here
  step d p := if d = (false, []) ∧ p = [108] then (false, [[100], [101]]) else plainTree.step d p

/-- "d/../f" is "f", "l/f" is "d/e/f", and "l/../f" is "d/f". -/
example : @entryOf plainTree [100, 47, 46, 46, 47, 102] = @entryOf plainTree [102] := by decide
example : @entryOf plainTree [100, 47, 46, 47, 47, 102] = @entryOf plainTree [100, 47, 102] := by decide
example : @entryOf plainTree [47, 46, 46, 47, 102] = @entryOf plainTree [47, 102] := by decide
example : @entryOf plainTree [100, 47, 102] ≠ @entryOf plainTree [102] := by decide
example : @entryOf linkTree [108, 47, 102] = @entryOf linkTree [100, 47, 101, 47, 102] := by decide
example : @entryOf linkTree [108, 47, 46, 46, 47, 102] = @entryOf linkTree [100, 47, 102] := by decide

end Bdlib.Spec

import Verif.Spec.NsApi
/-!
Paths: what a path means, in terms of the names in the directories.
-/
namespace RedFs
namespace Spec
open Str

/-- A path, cut at every separator. -/
def pieces (sep : Byte) : List Byte → List (List Byte)
  | [] => [[]]
  | x :: s => if x = sep then [] :: pieces sep s else
      match pieces sep s with
      | p :: ps => (x :: p) :: ps
      | [] => [[x]]

/-- The elements of a path: what is between its separators.  Leading, trailing and repeated separators do not count. -/
def comps (sep : Byte) (s : List Byte) : List (List Byte) := (pieces sep s).filter (· ≠ [])

/-- The elements "." and "..". -/
def Dotty (s : List Byte) : Prop := s = [46#8] ∨ s = [46#8, 46#8]

variable (c : Conf)

/-- Following the path elements `cs` from the directory `i` leads to an inode, or to an error.  `dots` says whether "." and ".." are special. -/
inductive Walk (F : Files) (dots : Prop) : Nat → List (List Byte) → Except Err Nat → Prop
  | done {i : Nat} : Walk F dots i [] (.ok i)
  /-- a name in a directory -/
  | name {i j : Nat} {n : List Byte} {cs : List (List Byte)} {r : Except Err Nat} : ¬ (dots ∧ Dotty n) → Has c F i n j → Walk F dots j cs r →
      Walk F dots i (n :: cs) r
  /-- "." is the directory itself -/
  | dot {i : Nat} {f : AFile} {cs : List (List Byte)} {r : Except Err Nat} : dots → IsDir F i f → Walk F dots i cs r → Walk F dots i ([46#8] :: cs) r
  /-- ".." is the directory above, or the root if there is none above -/
  | up {i : Nat} {f : AFile} {cs : List (List Byte)} {r : Except Err Nat} : dots → IsDir F i f → Walk F dots (if i = 2 then 2 else f.parent) cs r →
      Walk F dots i ([46#8, 46#8] :: cs) r
  /-- only a directory has something in it -/
  | notDir {i : Nat} {f : AFile} {n : List Byte} {cs : List (List Byte)} : IsReg F i f → Walk F dots i (n :: cs) (.error .enotdir)
  | tooLong {i : Nat} {f : AFile} {n : List Byte} {cs : List (List Byte)} : ¬ (dots ∧ Dotty n) → IsDir F i f → c.nameMax < n.length →
      Walk F dots i (n :: cs) (.error .enametoolong)
  | missing {i : Nat} {f : AFile} {n : List Byte} {cs : List (List Byte)} : ¬ (dots ∧ Dotty n) → IsDir F i f → n.length ≤ c.nameMax →
      (∀ j, ¬ Has c F i n j) → Walk F dots i (n :: cs) (.error .enoent)

/-- A path that is to be created or removed: the directory and the name in it; `rootErr` is the error if the path means the root. -/
inductive ToName (F : Files) (dots : Prop) (start : Nat) (rootErr : Err) : List (List Byte) → Except Err (Nat × List Byte) → Prop
  | name {cs : List (List Byte)} {n : List Byte} {p : Nat} : ¬ (dots ∧ Dotty n) → Walk c F dots start cs (.ok p) →
      ToName F dots start rootErr (cs ++ [n]) (.ok (p, n))
  | error {cs : List (List Byte)} {n : List Byte} {e : Err} : ¬ (dots ∧ Dotty n) → Walk c F dots start cs (.error e) →
      ToName F dots start rootErr (cs ++ [n]) (.error e)
  /-- the path ends with "." or ".." -/
  | dotsError {cs : List (List Byte)} {n : List Byte} {e : Err} : dots → Dotty n → Walk c F dots start (cs ++ [n]) (.error e) →
      ToName F dots start rootErr (cs ++ [n]) (.error e)
  | dots {cs : List (List Byte)} {n : List Byte} {i : Nat} : dots → Dotty n → Walk c F dots start (cs ++ [n]) (.ok i) → i ≠ 2 →
      ToName F dots start rootErr (cs ++ [n]) (.error .einval)
  /-- the root -/
  | dotsRoot {cs : List (List Byte)} {n : List Byte} : dots → Dotty n → Walk c F dots start (cs ++ [n]) (.ok 2) →
      ToName F dots start rootErr (cs ++ [n]) (.error rootErr)
  | root : start = 2 → ToName F dots start rootErr [] (.error rootErr)

end Spec
end RedFs

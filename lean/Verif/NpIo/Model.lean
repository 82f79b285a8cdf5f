import Verif.Items.Model
/-!
# Model of `write_dset_to_np` and `read_dset_from_np` (`rt_io.py:12-71`)

A folder is a dictionary from file names to arrays. Column names do not contain `/` and the folder is new (`makedirs`, `:29-32`). What numpy saves of an
array it loads again.
-/
namespace Verif.NpIo
open Verif.Items (Dict)

abbrev Name := List Char

/-- A column: a plain array, or codes with categories. `np.save` keeps the array of codes. -/
inductive Col (V L : Type) where
  | plain (v : List V)
  | coded (codes : List V) (cats : List L)
deriving DecidableEq, Repr

variable {V L : Type}

/-- What `np.save` writes of a column. -/
def Col.raw : Col V L → List V
  | .plain v => v
  | .coded c _ => c

def ext : Name := ".npy".toList

/-- `np.save` adds `.npy` unless the name ends with it. -/
def fileName (n : Name) : Name := if ext.isSuffixOf n then n else n ++ ext

/-- `name.replace(".npy", "")` (`:69`). -/
def colName : Name → Name
  | '.' :: 'n' :: 'p' :: 'y' :: r => colName r
  | c :: r => c :: colName r
  | [] => []

/-- `write_dset_to_np` (`:12-35`). -/
def write (ds : List (Name × Col V L)) : Dict Name (List V) :=
  ds.foldl (fun (d : Dict Name (List V)) (e : Name × Col V L) => Dict.set d (fileName e.1) e.2.raw) []

/-- `read_dset_from_np` (`:38-71`); `listing` is the folder in the order of `os.listdir`. -/
def read (listing : List (Name × List V)) : Dict Name (Col V L) :=
  listing.foldl (fun (d : Dict Name (Col V L)) (e : Name × List V) => Dict.set d (colName e.1) (.plain e.2)) []

end Verif.NpIo

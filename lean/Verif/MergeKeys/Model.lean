import Verif.MergeKeys.Spec
/-!
# Key columns of merges (C299, C300)

`riptable/rt_merge.py`: 103-226 (`_verify_join_key_compat`), 229-265 (`_verify_join_keys_compat`), 1648-1764
(`_extract_on_columns`), 1887-1904 (`_require_columns_present`), 2195-2235 (their use in `merge_indices`), 2595-2631 (their use
in `merge2`).

Simplifications: names are texts (bytes are not modelled); a Dataset is the list of its columns with their classes and types;
`np.can_cast` is a parameter.  A tuple whose entry for a side is neither a name nor a list of names is refused here at once
(the code refuses None and raises later for other values).  Key columns of Categoricals are not Categoricals; a Categorical with a mapping
has one key column (its labels).
-/
namespace Verif.MergeKeys

deriving instance DecidableEq for Except

/-- one side of a tuple (1701-1711, 1718-1728): one entry serves both sides, of two entries each side has one -/
def tupSide (left : Bool) : List Atom → Except String Atom
  | [a] => .ok a
  | [a, b] => .ok (if left then a else b)
  | _ => .error "ValueError: unsupported tuple"

/-- 1716-1732: one entry of a list -/
def itemSide (left : Bool) : Item → Except String String
  | .name s => .ok s
  | .tup l =>
    match tupSide left l with
    | .error e => .error e
    | .ok (.name s) => .ok s
    | .ok _ => .error "not a name"
  | .other => .error "ValueError: unsupported argument type"

/-- the loop of 1714-1732 -/
def listSide (left : Bool) : List Item → Except String (List String)
  | [] => .ok []
  | i :: is =>
    match itemSide left i with
    | .error e => .error e
    | .ok s =>
      match listSide left is with
      | .error e => .error e
      | .ok ss => .ok (s :: ss)

/-- 1754-1764: no names are refused -/
def nonEmpty (l : List String) : Except String (List String) :=
  if l.isEmpty then .error "ValueError: unable to extract column names" else .ok l

/-- `_extract_on_columns` (1648-1764); `side` is `left_on` or `right_on` as a list -/
def extract (on : On) (side : Option (List String)) (left optional : Bool) : Except String (List String) :=
  match side, on with
  | none, .none => if optional then .ok [] else .error "ValueError: cannot both be None"
  | none, .name s => .ok [s]
  | none, .tup l =>
    match tupSide left l with
    | .error e => .error e
    | .ok (.name s) => .ok [s]
    | .ok (.names ns) => nonEmpty ns
    | .ok _ => .error "ValueError: unable to extract column names"
  | none, .list l =>
    match listSide left l with
    | .error e => .error e
    | .ok ns => nonEmpty ns
  | none, .other => .error "ValueError: unsupported argument type"
  | some ns, .none => nonEmpty ns
  | some _, _ => .error "ValueError: cannot be specified together"

/-- an error stops the merge, a warning does not (99-100, 216-231) -/
inductive Trouble where
  | error
  | warning
deriving DecidableEq, Repr

/-- 187-226: two arrays -/
def compatArr (canCast : DT → DT → Bool) (a b : Nat × DT) : List Trouble :=
  if a.1 ≠ b.1 then [.error] else
  if canCast a.2 b.2 || canCast b.2 a.2 then [] else
  if a.2.int && b.2.int then [] else
  if a.2.float && b.2.float then [] else
  if a.2.text && b.2.text then [] else [.warning]

/-- 229-265 `_verify_join_keys_compat` of arrays -/
def compatArrs (canCast : DT → DT → Bool) (ls rs : List (Nat × DT)) : List Trouble :=
  if ls.isEmpty || rs.isEmpty then [.error] else
  if ls.length ≠ rs.length then [.error] else
  (ls.zip rs).flatMap fun p => compatArr canCast p.1 p.2

/-- 103-226 `_verify_join_key_compat` -/
def compat (canCast : DT → DT → Bool) : Key → Key → List Trouble
  | .cat ls, .cat rs => compatArrs canCast ls rs
  | .cat ls, .arr c t => compatArrs canCast ls [(c, t)]
  | .arr c t, .cat rs => compatArrs canCast [(c, t)] rs
  | .arr c t, .arr c' t' => compatArr canCast (c, t) (c', t')

/-- 229-265 of columns -/
def compatAll (canCast : DT → DT → Bool) (ls rs : List Key) : List Trouble :=
  if ls.isEmpty || rs.isEmpty then [.error] else
  if ls.length ≠ rs.length then [.error] else
  (ls.zip rs).flatMap fun p => compat canCast p.1 p.2

abbrev Ds := List (String × Key)

def col (d : Ds) (n : String) : Option Key := (d.find? fun e => e.1 = n).map Prod.snd

/-- `merge2`, the key columns (2595-2631): the names of both sides are looked up, paired with `zip`, and `merge_indices`
(2195-2235) compares the paired columns.  The result is the pairs of names and whether a warning was given. -/
def merge2Keys (canCast : DT → DT → Bool) (L R : Ds) (on : On) (leftOn rightOn : Option (List String)) :
    Except String (List (String × String) × Bool) :=
  match extract on leftOn true false with
  | .error e => .error e
  | .ok ls =>
    match extract on rightOn false false with
    | .error e => .error e
    | .ok rs =>
      if ls.any (fun n => (col L n).isNone) || rs.any (fun n => (col R n).isNone) then
        .error "ValueError: columns are not present"
      else
        let pairs := ls.zip rs
        let troubles := compatAll canCast (pairs.filterMap fun p => col L p.1) (pairs.filterMap fun p => col R p.2)
        if troubles.contains .error then .error "ValueError: compatibility errors" else .ok (pairs, troubles.contains .warning)

end Verif.MergeKeys

import Verif.Basic
import Verif.Par.Machine
/-!
# Fixed-width string arrays (`riptable/rt_str.py`)

A `FAString` is a flat buffer of character codes (`uint8` for 'S', `uint32` for 'U'), `itemsize`
codes per row, unused places at the end of a row are 0 (`rt_str.py:122-160`).

Every kernel is a `prange` over rows.  The source buffer is only read, so the stores an
iteration makes, in program order, are a function of the source; this list of stores is what is
modelled (`trace`), and the iterations run as threads on `Verif.Par` under an arbitrary
interleaving.  Character codes are natural numbers; overflow of `c - 32`, `c + 32` cannot occur
on the guarded values.  Reads outside the source buffer (which a well-formed call never makes)
give 0.
-/
namespace Verif.Str
open Verif.Par

abbrev Buf := List Nat

/-- `src[k]` -/
def rd (src : Buf) (k : Nat) : Nat := src.getD k 0

/-- the machine of a `prange(n)` loop whose iteration `i` makes the stores `trace i` -/
def kernel {β : Type} (n : Nat) (trace : Nat → List (Nat × β)) (dest : List β) : Mach β Unit :=
  ⟨dest, (List.range n).map fun i => ⟨(), (trace i).map fun s => .store s.1 (fun _ => s.2)⟩⟩

/-- `out` is what some complete interleaving of the iterations leaves in the output array,
which held `dest` (uninitialised memory, `rt_str.py:218-224`) before -/
def Runs {β : Type} (n : Nat) (trace : Nat → List (Nat × β)) (dest out : List β) : Prop :=
  ∃ sched, Done (runSched (kernel n trace dest) sched) ∧ out = (runSched (kernel n trace dest) sched).mem

/-! ## `_nb_upper`, `_nb_lower` -/

/-- `_nb_upper` (`rt_str.py:293-304`) -/
def upperTrace (src : Buf) (itemsize i : Nat) : List (Nat × Nat) :=
  let rowpos := i * itemsize
  (List.range itemsize).map fun j =>
    let c := rd src (rowpos + j)
    (rowpos + j, if c ≥ 97 ∧ c ≤ 122 then c - 32 else c)

/-- `_nb_lower` (`rt_str.py:307-318`) -/
def lowerTrace (src : Buf) (itemsize i : Nat) : List (Nat × Nat) :=
  let rowpos := i * itemsize
  (List.range itemsize).map fun j =>
    let c := rd src (rowpos + j)
    (rowpos + j, if c ≥ 65 ∧ c ≤ 90 then c + 32 else c)

/-! ## `_nb_removetrailing` -/

/-- the first loop of `_nb_removetrailing` (`rt_str.py:328-336`) from `startpos = k - 1` down;
returns the stores and the value of `startpos` when the loop ends -/
def trailLoop (src : Buf) (rowpos removechar : Nat) : Nat → List (Nat × Nat) × Nat
  | 0 => ([], 0)
  | k + 1 =>
    let c := rd src (rowpos + k)
    let trailing := c = 0 ∨ c = removechar
    if trailing then
      let r := trailLoop src rowpos removechar k
      ((rowpos + k, 0) :: r.1, r.2)
    else ([(rowpos + k, c)], k)

/-- `_nb_removetrailing` (`rt_str.py:321-339`) -/
def removetrailingTrace (src : Buf) (itemsize removechar i : Nat) : List (Nat × Nat) :=
  let rowpos := i * itemsize
  let r := trailLoop src rowpos removechar itemsize
  r.1 ++ (List.range r.2).reverse.map fun pos => (rowpos + pos, rd src (rowpos + pos))

/-! ## `_nb_strlen`, `_nb_reverse` -/

/-- the counting loop `for j in range(itemsize): if src[rowpos + j] == 0: break; strlen += 1`
(`rt_str.py:389-392`, the same as a `while` in `_nb_reverse`, `:368-372`) with `todo` places left -/
def strlenLoop (src : Buf) (rowpos : Nat) : Nat → Nat → Nat
  | 0, strlen => strlen
  | todo + 1, strlen => if rd src (rowpos + strlen) = 0 then strlen else strlenLoop src rowpos todo (strlen + 1)

/-- `_nb_strlen` (`rt_str.py:382-394`) -/
def strlenTrace (src : Buf) (itemsize i : Nat) : List (Nat × Int) :=
  let rowpos := i * itemsize
  [(i, (strlenLoop src rowpos itemsize 0 : Int))]

/-- `while strlen > 0` of `_nb_reverse` (`rt_str.py:374-377`) -/
def reverseLoop (src : Buf) (rowpos : Nat) : Nat → Nat → List (Nat × Nat)
  | 0, _ => []
  | strlen + 1, srcpos => (rowpos + strlen, rd src (rowpos + srcpos)) :: reverseLoop src rowpos strlen (srcpos + 1)

/-- `_nb_reverse` (`rt_str.py:362-380`); the last loop fills the rest of the row with 0 -/
def reverseTrace (src : Buf) (itemsize i : Nat) : List (Nat × Nat) :=
  let rowpos := i * itemsize
  let strlen := strlenLoop src rowpos itemsize 0
  reverseLoop src rowpos strlen 0 ++
    (List.range (itemsize - strlen)).map fun k => (rowpos + (strlen + k), 0)

/-! ## searches -/

/-- `_str_equal` (`rt_str.py:86-90`): compares as far as both go -/
def strEqual (a b : Buf) : Bool := (a.zip b).all fun p => p.1 == p.2

/-- `_nb_index_any_of` (`rt_str.py:397-416`) -/
def indexAnyOfTrace (src : Buf) (itemsize : Nat) (str2 : Buf) (i : Nat) : List (Nat × Int) :=
  let rowpos := i * itemsize
  match (List.range itemsize).find? fun j => str2.any fun s => rd src (rowpos + j) == s with
  | some j => [(i, (j : Int))]
  | none => [(i, -1)]

/-- `_nb_index` (`rt_str.py:419-431`) -/
def indexTrace (src : Buf) (itemsize : Nat) (str2 : Buf) (i : Nat) : List (Nat × Int) :=
  let rowpos := i * itemsize
  (i, -1) ::
    match (List.range (itemsize + 1 - str2.length)).find? fun j => strEqual (src.drop (rowpos + j)) str2 with
    | some j => [(i, (j : Int))]
    | none => []

/-- `_nb_contains` (`rt_str.py:434-444`) -/
def containsTrace (src : Buf) (itemsize : Nat) (str2 : Buf) (i : Nat) : List (Nat × Bool) :=
  let rowpos := i * itemsize
  (i, false) ::
    match (List.range (itemsize + 1 - str2.length)).find? fun j => strEqual (src.drop (rowpos + j)) str2 with
    | some _ => [(i, true)]
    | none => []

/-- `while (k > 0) and (src[rowpos + k - 1] == 0): k -= 1` (`rt_str.py:480-481`) -/
def padLoop (src : Buf) (rowpos : Nat) : Nat → Nat
  | 0 => 0
  | k + 1 => if rd src (rowpos + k) = 0 then padLoop src rowpos k else k + 1

/-- `while k2 > 0` of `_nb_endswith` (`rt_str.py:487-491`); true when it ends with `k2 = 0`.
(`k ≥ k2` throughout, so `k - 1` does not wrap.) -/
def endLoop (src : Buf) (rowpos : Nat) (str2 : Buf) : Nat → Nat → Bool
  | _, 0 => true
  | k, k2 + 1 => if rd src (rowpos + k - 1) ≠ rd str2 k2 then false else endLoop src rowpos str2 (k - 1) k2

/-- `_nb_endswith` (`rt_str.py:468-494`) -/
def endswithTrace (src : Buf) (itemsize : Nat) (str2 : Buf) (i : Nat) : List (Nat × Bool) :=
  let rowpos := i * itemsize
  (i, false) ::
    if itemsize ≥ str2.length then
      let k := padLoop src rowpos itemsize
      if k ≥ str2.length then
        if endLoop src rowpos str2 k str2.length then [(i, true)] else []
      else []
    else []

/-- `while k < str2len` of `_nb_startswith` (`rt_str.py:508-511`) with `todo = str2len - k`;
the final `k` -/
def startLoop (src : Buf) (rowpos : Nat) (str2 : Buf) : Nat → Nat → Nat
  | 0, k => k
  | todo + 1, k => if rd src (rowpos + k) ≠ rd str2 k then k else startLoop src rowpos str2 todo (k + 1)

/-- `_nb_startswith` (`rt_str.py:497-514`) -/
def startswithTrace (src : Buf) (itemsize : Nat) (str2 : Buf) (i : Nat) : List (Nat × Bool) :=
  let rowpos := i * itemsize
  (i, false) ::
    if itemsize ≥ str2.length then
      if startLoop src rowpos str2 str2.length 0 = str2.length then [(i, true)] else []
    else []

/-! ## search arguments -/

/-- the search argument: a Python `str` or `bytes` (`rt_str.py:175-198`); an array with one string
in it is `bytes` with its padding -/
structure Arg where
  isStr : Bool
  chars : Buf

/-- `FAString` of a single string: numpy gives the empty string width one (`rt_str.py:192-198`) -/
def Arg.buf (a : Arg) : Buf := if a.chars = [] then [0] else a.chars

/-- the test `str2 == ""` of the entry points (`rt_str.py:635`, `:663`, …): a `bytes` object is
never equal to `""` -/
def Arg.isEmptyStr (a : Arg) : Bool := a.isStr && a.chars.isEmpty

/-- result of an entry point of a string array with `n` rows: the constant answer for `""`, else
the kernel (`rt_str.py:634-639`, `:662-667`, `:708-713`, `:847-856`, `:894-903`).  `strpos` … `n` rows -/
def Search {β : Type} (n : Nat) (a : Arg) (dflt : β) (trace : Buf → Nat → List (Nat × β)) (dest out : List β) : Prop :=
  if a.isEmptyStr then out = List.replicate n dflt else Runs n (trace a.buf) dest out

/-- `FAString.index_any_of` -/
def IndexAnyOf (src : Buf) (itemsize n : Nat) (a : Arg) (dest out : List Int) : Prop :=
  Search n a 0 (indexAnyOfTrace src itemsize) dest out
/-- `FAString.index` -/
def Index (src : Buf) (itemsize n : Nat) (a : Arg) (dest out : List Int) : Prop :=
  Search n a 0 (indexTrace src itemsize) dest out
/-- `FAString.contains` -/
def Contains (src : Buf) (itemsize n : Nat) (a : Arg) (dest out : List Bool) : Prop :=
  Search n a true (containsTrace src itemsize) dest out
/-- `FAString.startswith` -/
def Startswith (src : Buf) (itemsize n : Nat) (a : Arg) (dest out : List Bool) : Prop :=
  Search n a true (startswithTrace src itemsize) dest out
/-- `FAString.endswith` -/
def Endswith (src : Buf) (itemsize n : Nat) (a : Arg) (dest out : List Bool) : Prop :=
  Search n a true (endswithTrace src itemsize) dest out

/-! ## `_nb_find`, `_nb_replace`, `replace` -/

/-- `while str_pos <= itemsize - str2len` of `_nb_find` (`rt_str.py:454-460`): the positions set to
True, in order.  Every round advances, so `fuel = itemsize + 1` rounds are enough. -/
def findLoop (src : Buf) (rowpos itemsize : Nat) (str2 : Buf) : Nat → Nat → List Nat
  | 0, _ => []
  | fuel + 1, pos =>
    if pos + str2.length ≤ itemsize then
      if strEqual (src.drop (rowpos + pos)) str2 then
        pos :: findLoop src rowpos itemsize str2 fuel (pos + str2.length)
      else findLoop src rowpos itemsize str2 fuel (pos + 1)
    else []

/-- row `i` of the matrix `locations` (`rt_str.py:446-464`, `:741`) -/
def locRow (src : Buf) (itemsize : Nat) (str2 : Buf) (i : Nat) : List Bool :=
  (findLoop src (i * itemsize) itemsize str2 (itemsize + 1) 0).foldl (fun l p => l.set p true)
    (List.replicate itemsize false)

/-- `while src_pos < itemsize` of `_nb_replace` (`rt_str.py:759-770`); every round advances `src_pos` -/
def replLoop (src : Buf) (rowpos itemsize : Nat) (oldLen : Nat) (new : Buf) (newIsEmpty : Bool) (loc : List Bool) :
    Nat → Nat → Nat → List (Nat × Nat)
  | 0, _, _ => []
  | fuel + 1, srcPos, destPos =>
    if srcPos < itemsize then
      if loc.getD srcPos false then
        if newIsEmpty then replLoop src rowpos itemsize oldLen new newIsEmpty loc fuel (srcPos + oldLen) destPos
        else
          (new.zipIdx.map fun p => (destPos + p.2, p.1)) ++
            replLoop src rowpos itemsize oldLen new newIsEmpty loc fuel (srcPos + oldLen) (destPos + new.length)
      else
        (destPos, rd src (rowpos + srcPos)) ::
          replLoop src rowpos itemsize oldLen new newIsEmpty loc fuel (srcPos + 1) (destPos + 1)
    else []

/-- one row of `_nb_replace` (`rt_str.py:748-771`) -/
def replaceTrace (src : Buf) (itemsize destItemsize : Nat) (old new : Buf) (row : Nat) : List (Nat × Nat) :=
  replLoop src (row * itemsize) itemsize old.length new (new.length == 1 && rd new 0 == 0)
    (locRow src itemsize old row) itemsize 0 (row * destItemsize)

/-- `locations.sum(axis=1)` -/
def counts (src : Buf) (itemsize n : Nat) (old : Buf) : List Nat :=
  (List.range n).map fun i => (locRow src itemsize old i).count true

/-- `replace` chooses the width of the result (`rt_str.py:787-796`).  `-char_diff` is positive in the
second branch: the width grows there too. -/
def destItemsize (itemsize : Nat) (old new : Buf) (counts : List Nat) : Nat :=
  if new.length > old.length then itemsize + (new.length - old.length) * counts.foldl max 0
  else if new.length < old.length then itemsize + (old.length - new.length) * counts.foldl min (counts.headD 0)
  else itemsize

/-- `FAString.replace` (`rt_str.py:773-808`): refuses `old == ""`; if nothing is found the array
itself; else `nb_replace` into a zeroed buffer.  (`nb_replace_par` is the serial version too,
`rt_str.py:1347`; here any interleaving.)  The result is the width and the buffer. -/
def Replace (src : Buf) (itemsize n : Nat) (old new : Arg) (res : Except String (Nat × Buf)) : Prop :=
  if old.isEmptyStr then res = .error "cannot replace the empty string"
  else if ¬ (counts src itemsize n old.buf).any (· > 0) then res = .ok (itemsize, src)
  else
    let dw := destItemsize itemsize old.buf new.buf (counts src itemsize n old.buf)
    ∃ out, Runs n (replaceTrace src itemsize dw old.buf new.buf) (List.replicate (n * dw) 0) out ∧ res = .ok (dw, out)

/-! ## `substr`, `char` -/

/-- a slice bound: one integer, or an array with one per row (`scalar_or_lookup`) -/
inductive Bound where
  | scalar (x : Int)
  | array (xs : List Int)

/-- `scalar_or_lookup` (`numba/indexing.py:57-90`) -/
def Bound.at (b : Bound) (i : Nat) : Int :=
  match b with
  | .scalar x => x
  | .array xs => xs.getD i 0

/-- the positions `range(i, j)` row `elem` copies in `_nb_substr` (`rt_str.py:1163-1172`) -/
def substrRange (start stop : Int) (elemLen : Nat) : Nat × Nat :=
  let i := if start < 0 then start + elemLen else start
  let j := if stop < 0 then stop + elemLen else stop
  let i := max i 0
  let j := min j elemLen
  (i.toNat, j.toNat)

/-- the stores of row `elem` of `_nb_substr` (`rt_str.py:1162-1174`) into the `n × itemsize` output -/
def substrTrace (src : Buf) (itemsize : Nat) (start stop : Bound) (strlen : List Int) (elem : Nat) : List (Nat × Nat) :=
  let r := substrRange (start.at elem) (stop.at elem) (strlen.getD elem 0).toNat
  (List.range (r.2 - r.1)).map fun outPos => (elem * itemsize + outPos, rd src (itemsize * elem + (r.1 + outPos)))

/-- `max_chars` (`rt_str.py:1161`, `:1175`), a maximum over the rows -/
def maxChars (n : Nat) (start stop : Bound) (strlen : List Int) : Nat :=
  ((List.range n).map fun elem =>
    let r := substrRange (start.at elem) (stop.at elem) (strlen.getD elem 0).toNat
    r.2 - r.1).foldl max 0

/-- row `i` of a buffer -/
def row {β : Type} (w i : Nat) (b : List β) : List β := (b.drop (i * w)).take w

/-- `out[:, :max_chars]` and `ravel()` -/
def cutColumns (n w m : Nat) (b : Buf) : Buf := (List.range n).flatMap fun i => (row w i b).take m

/-- `_substr(start, stop)` with both bounds given (`rt_str.py:1178-1226`); `strlen` is the result of
`FAString.strlen`.  The result is the width and the buffer. -/
def Substr (src : Buf) (itemsize n : Nat) (start stop : Bound) (strlen : List Int) (res : Nat × Buf) : Prop :=
  ∃ out, Runs n (substrTrace src itemsize start stop strlen) (List.replicate (n * itemsize) 0) out ∧
    let m := maxChars n start stop strlen
    res = if m = 0 then (1, List.replicate n 0) else (m, cutColumns n itemsize m out)

/-- the defaults of `_substr` (`rt_str.py:1197-1205`): a single argument is the stop; `None` for the
start is 0, for the stop the length -/
def substrArgs (start stop : Option Bound) (strlen : List Int) : Bound × Bound :=
  match stop with
  | some stop => (start.getD (.scalar 0), stop)
  | none => (.scalar 0, start.getD (.array strlen))

/-- `_SubStrAccessor.__getitem__` for a slice without step (`rt_str.py:1429-1437`): a missing stop
becomes the string lengths -/
def sliceArgs (start stop : Option Bound) (strlen : List Int) : Bound × Bound :=
  substrArgs start (some (stop.getD (.array strlen))) strlen

/-- `substr_char_stop` (`rt_str.py:1232-1257`): the stop positions from the result of `index` -/
def charStops (itemsize : Nat) (inclusive : Bool) (index : List Int) : List Int :=
  (index.map fun p => if p = -1 then (itemsize : Int) else p).map fun p => if inclusive then p + 1 else p

/-- one row of `_nb_char` (`rt_str.py:1261-1274`): the store, and whether the position is broken -/
def charRow (src : Buf) (itemsize : Nat) (pos : Int) (strlen : Int) (i : Nat) : (Nat × Nat) × Bool :=
  let pos := if pos < 0 then strlen + pos else pos
  if pos ≥ itemsize ∨ pos < 0 then ((i, 0), true) else ((i, rd src (itemsize * i + pos.toNat)), false)

/-- `char` (`rt_str.py:1278-1313`) with one position per row (a scalar is repeated, `:1297-1302`):
wrong length and out-of-range positions are refused, naming the first one -/
def Char (src : Buf) (itemsize n : Nat) (position : List Int) (strlen : List Int) (res : Except String Buf) : Prop :=
  if position.length ≠ n then res = .error "position must be a scalar or a vector of the same length as self"
  else
    ∃ out, Runs n (fun i => [(charRow src itemsize (position.getD i 0) (strlen.getD i 0) i).1]) (List.replicate n 0) out ∧
      res = match (List.range n).find? fun i => (charRow src itemsize (position.getD i 0) (strlen.getD i 0) i).2 with
        | some i => .error s!"Position {position.getD i 0} out of bounds for string of length {itemsize}"
        | none => .ok out

end Verif.Str

import Verif.Par.Machine

/-!
# Model of the unpacked numba group-by functions, `riptable/rt_groupbynumba.py`

`nb.prange` over cores is modelled by the threads of `Verif/Par/Machine.lean`, with one
register of the element type.
-/
namespace Verif.GbNumba
open Verif.Par

section
variable {α β : Type}

/-! ## Work split -/

/-- loop state of `build_core_list` -/
structure Split where
  low : Nat
  rem : Nat
  binLow : List Nat
  binHigh : List Nat

/-- loop body, `rt_groupbynumba.py:38-51` -/
def splitBody (dividend : Nat) (s : Split) (i : Nat) : Split :=
  let high := s.low + dividend
  let high' := if s.rem > 0 then high + 1 else high
  let rem' := if s.rem > 0 then s.rem - 1 else s.rem
  ⟨high', rem', s.binLow.set i s.low, s.binHigh.set i high'⟩

/-- `rt_groupbynumba.py:31-51` `build_core_list`; `binLow`, `binHigh` are allocated with
`np.empty`, so their contents are arbitrary -/
def buildCoreList (cores uniqueRows : Nat) (binLow binHigh : List Nat) : List Nat × List Nat :=
  let s := (List.range cores).foldl (splitBody (uniqueRows / cores)) ⟨0, uniqueRows % cores, binLow, binHigh⟩
  (s.binLow, s.binHigh)

/-! ## Kernels -/

/-- accesses of one core: reset its bins, then go over all rows and update the bins in
its range (`rt_groupbynumba.py:146-159`, `:168-185`).  `upd r x` is the new content of
a bin; where the code leaves the bin alone, writing back the old content is the same
since no other core touches the bin (see `access`). -/
def coreProg (init : β) (upd : β → α → β) (ikey : List Nat) (data : List α) (low high : Nat) : List (Act β β) :=
  ((List.range' low (high - low)).map fun i => Act.store i fun _ => init) ++
    (ikey.zip data).flatMap fun p =>
      if p.1 ≥ low ∧ p.1 < high then [.load p.1 fun _ v => v, .store p.1 fun r => upd r p.2] else []

/-- `:140-159` `_numbasum`, `:163-185` `_numbamin` before they start: one thread per
entry of `binLow`; `r0` is the arbitrary content of a register -/
def launch (init : β) (upd : β → α → β) (ikey : List Nat) (data : List α) (binLow binHigh : List Nat) (ret : List β) (r0 : β) :
    Mach β β :=
  ⟨ret, (binLow.zip binHigh).map fun b => ⟨r0, coreProg init upd ikey data b.1 b.2⟩⟩

/-- update of `_numbasum` -/
def sumUpd [Add β] (r x : β) : β := r + x

/-- update of `_numbamin` for an integer dtype with invalid `inv` -/
def minUpdInt (inv : Int) (r x : Int) : Int := if r = inv ∨ ¬ x ≥ r then x else r

/-- Python comparison `x >= y` of floats; `none` is NaN -/
def fge [LE α] [DecidableLE α] : Option α → Option α → Bool
  | some x, some y => decide (x ≥ y)
  | _, _ => false

/-- update of `_numbamin` for floats: `inv` is NaN, `ret == inv` is always false -/
def minUpdFloat [LE α] [DecidableLE α] (r x : Option α) : Option α := if !fge x r then x else r

/-- `:60-90` `_nb_groupbycalculateall` for one column, up to the launch; `coreCount` is
`CORE_COUNT`, 12 in the code; `ret` the freshly allocated result -/
def calculateAll (coreCount : Nat) (init : β) (upd : β → α → β) (ikey : List Nat) (data : List α) (uniqueRows : Nat)
    (lowBuf highBuf : List Nat) (ret : List β) (r0 : β) : Mach β β :=
  let rows := uniqueRows + 1
  let cores := min coreCount rows
  let b := buildCoreList cores rows lowBuf highBuf
  launch init upd ikey data b.1 b.2 ret r0

end
end Verif.GbNumba

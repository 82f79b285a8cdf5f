import Verif.Par.Machine
import Verif.Merge.Model

/-!
# Model of the packed numba group-by functions, `riptable/rt_groupbynumba.py`

`nb.prange(binLow, binHigh)` gives one thread per group.  Memory is one array: the input
column followed by the result array, or just the input column when working in place.
-/
namespace Verif.GbNumba
open Verif.Par Verif.Merge

section
variable {α ρ K : Type}

/-- rows visited for group `c`, in order: `rt_groupbynumba.py:503-511` with
`rowIdx = iGroup[index]` (`:516`, `:524`); ascending indices when `direction == 1`, else
descending.  `_numbaEMA` (`:191-198`) uses the ascending order. -/
def groupOrder (g : Grouping K) (forward : Bool) (c : Nat) : List Nat :=
  let start := g.ifirstgroup.getD c 0
  let idx := List.range' start (g.ncountgroup.getD c 0)
  (if forward then idx else idx.reverse).map fun i => g.igroup.getD i 0

/-- accesses of one group: for every row read `data[row]`, update the local variables,
write `ret[row]`.  (The kernels read `data[row]` up to twice in a row and, when the value
is not changed, write it back; nobody else touches the row, so one read is the same.) -/
def scanProg (off : Nat) (f : Nat → ρ → α → ρ) (out : ρ → α) (order : List Nat) : List (Act α ρ) :=
  order.flatMap fun r => [.load r (f r), .store (off + r) out]

/-- the machine at the start: groups `binLow … unique_rows` (`:103-133`,
`rt_grouping.py:3396-3397`: `binHigh = unique_rows + 1`), each with initial local
variables `init c` -/
def launchPacked (g : Grouping K) (forward : Bool) (binLow : Nat) (f : Nat → ρ → α → ρ) (out : ρ → α) (init : Nat → ρ)
    (off : Nat) (mem : List α) : Mach α ρ :=
  ⟨mem, (List.range' binLow (g.gbkeys.length + 1 - binLow)).map fun c => ⟨init c, scanProg off f out (groupOrder g forward c)⟩⟩

/-- local variables of the fill loop -/
structure FillReg (α : Type) where
  lastValid : α
  counter : Int
  out : α

/-- `:513-533`: body of the two fill loops -/
def fillStep (isInv : α → Bool) (limit : Int) (r : FillReg α) (x : α) : FillReg α :=
  if limit ≤ 0 then
    let last := if !isInv x then x else r.lastValid
    { r with lastValid := last, out := last }
  else if isInv x then
    if r.counter > 0 then { r with out := r.lastValid, counter := r.counter - 1 } else { r with out := x }
  else ⟨x, limit, x⟩

inductive FillErr where
  | unsupported
  | negativeLimit
deriving DecidableEq, Repr

/-- `:384-446` `_nb_fill_backend` up to the launch, for a numeric column of which the
invalid is `inv`; `ret` is the freshly allocated result (arbitrary contents), not used
when `inplace`; `off` is where the result lives.  The conversion of `fill_val` to the
dtype is not modelled. -/
def fillBackend (g : Grouping K) (forward : Bool) (binLow : Nat) (supported : Bool) (isInv : α → Bool) (inv : α) (data ret : List α)
    (fillVal : Option α) (limit : Option Int) (inplace : Bool) : Except FillErr (Mach α (FillReg α) × Nat) :=
  if !supported then .error .unsupported
  else
    let fv := fillVal.getD inv
    let lim := limit.getD 0
    if lim < 0 then .error .negativeLimit
    else
      let off := if inplace then 0 else data.length
      .ok (launchPacked g forward binLow (fun _ => fillStep isInv lim) FillReg.out (fun _ => ⟨fv, lim, fv⟩) off
        (if inplace then data else data ++ ret), off)

/-- the array handed back: the `n` cells from `off` -/
def resultArray (m : Mach α ρ) (off n : Nat) : List α := (m.mem.drop off).take n

/-- local variables of `_numbaEMA` -/
structure EmaReg (R T : Type) where
  lastEma : R
  lastTime : T

/-- `:198-206`: loop body; `E d` is `np.exp(-decayRate * d)`.  Numbers are elements of a
ring: floating-point rounding is not modelled. -/
def emaStep {R T : Type} [Mul R] [Add R] [Sub T] (E : T → R) (time : List T) (t0 : T) (row : Nat) (s : EmaReg R T) (x : R) : EmaReg R T :=
  let timeDelta := time.getD row t0 - s.lastTime
  ⟨x + s.lastEma * E timeDelta, time.getD row t0⟩

/-- `:189-206` `_numbaEMA`, at the start.  `iGroup[start]` is read even for an empty
group; the model then reads a default (see `ema_empty_group_counterexample`). -/
def emaLaunch {R T : Type} [Zero R] [Mul R] [Add R] [Sub T] (g : Grouping K) (binLow : Nat) (E : T → R) (time : List T) (t0 : T)
    (data ret : List R) : Mach R (EmaReg R T) :=
  launchPacked g true binLow (emaStep E time t0) EmaReg.lastEma
    (fun c => ⟨0, time.getD (g.igroup.getD (g.ifirstgroup.getD c 0) 0) t0⟩) data.length (data ++ ret)

end
end Verif.GbNumba

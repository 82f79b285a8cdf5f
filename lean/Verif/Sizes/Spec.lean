/-!
# What the sizes of a Struct should be (C340 - C343)

Structs can hold each other in any way, so they are places of a heap.
-/
namespace Verif.Sizes

/-- an item of a Struct: an array (the memory it is a view of, and its bytes), a Categorical (the memory of its codes, the bytes of the codes,
and memory and bytes of its category arrays), another Struct, an integer, an array over memory that is no array (a buffer of bytes), or
anything else -/
inductive Item where
  | array (base bytes : Nat)
  | cat (base bytes : Nat) (cats : List (Nat × Nat))
  | sub (s : Nat)
  | int
  | foreign
  | other
deriving DecidableEq, Repr

/-- the items of each Struct -/
abbrev Heap := List (List Item)

namespace Spec

/-- a Struct holds an item -/
def Holds (h : Heap) (s : Nat) (it : Item) : Prop := ∃ l, h[s]? = some l ∧ it ∈ l

/-- a Struct is somewhere inside another -/
inductive Inside (h : Heap) : Nat → Nat → Prop where
  | item (s t : Nat) : Holds h s (.sub t) → Inside h s t
  | deeper (s t u : Nat) : Inside h s t → Holds h t (.sub u) → Inside h s u

/-- a Struct belongs to the tree of another -/
def InTree (h : Heap) (root s : Nat) : Prop := s = root ∨ Inside h root s

/-- every Struct that is held exists -/
def Closed (h : Heap) : Prop := ∀ s t, Holds h s (.sub t) → t < h.length

/-- the bytes of an item -/
def bytesOf : Item → Nat
  | .array _ n => n
  | .cat _ n cats => n + (cats.map Prod.snd).sum
  | .int => 4
  | _ => 0

/-- the bytes of the items of one Struct -/
def ownBytes (h : Heap) (s : Nat) : Nat := (((h[s]?).getD []).map bytesOf).sum

/-- the integers of one Struct -/
def ownInts (h : Heap) (s : Nat) : Nat := ((h[s]?).getD []).countP fun it => it == .int

/-- the memory of an item, with its bytes -/
inductive DataOf : Item → Nat → Nat → Prop where
  | array (b n : Nat) : DataOf (.array b n) b n
  | cat (b n : Nat) (cats : List (Nat × Nat)) : DataOf (.cat b n cats) b (n + (cats.map Prod.snd).sum)

end Spec
end Verif.Sizes

/-! # Tables shown as text: what is expected (C314 - C321) -/
namespace Verif.Show

abbrev Text := List Char

/-- what stands for rows or columns left out -/
def dots : Text := ['.', '.', '.']

/-- the rows to be shown, as indices, `none` for the line of dots: all rows if they fit, else the first `head`, dots and the last `tail` -/
def wantedRows (all : Bool) (head tail n : Nat) : List (Option Nat) :=
  if all = true ∨ n ≤ head + tail then (List.range n).map some
  else (List.range head).map some ++ none :: (List.range' (n - tail) tail).map some

/-- the text padded with blanks to a given width -/
def Padded (w : Nat) (t p : Text) : Prop :=
  p.length = w ∧ ∃ a b, p = List.replicate a ' ' ++ t ++ List.replicate b ' '

/-- cells side by side, three blanks between them -/
def beside : List Text → Text
  | [] => []
  | [p] => p
  | p :: q :: r => p ++ [' ', ' ', ' '] ++ beside (q :: r)

/-- length of a line with cells of these widths -/
def lineWidth (ws : List Nat) : Nat := ws.sum + 3 * (ws.length - 1)

/-- the name above every column, for headers that span several columns -/
def above {N : Type} (l : List (N × Nat)) : List N := l.flatMap fun e => List.replicate e.2 e.1

end Verif.Show

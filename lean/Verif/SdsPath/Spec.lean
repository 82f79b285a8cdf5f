/-!
# Files that saving replaces (C301 - C303)

Paths are lists of characters with "/" between folders.  Nothing here depends on the model.
-/
namespace Verif.SdsPath.Spec

/-- which paths are files and which are folders -/
structure FS where
  file : List Char → Bool
  dir : List Char → Bool

/-- the documented answers to the question whether a file may be replaced -/
def Yes (a : String) : Prop := a = "y" ∨ a = "Y"
def No (a : String) : Prop := a = "n" ∨ a = "N"

/-- the first answer that is a yes or a no is a yes -/
def SaysYes (answers : List String) : Prop :=
  ∃ (i : Nat) (a : String), answers[i]? = some a ∧ Yes a ∧ ∀ (j : Nat) (b : String), j < i → answers[j]? = some b → ¬ Yes b ∧ ¬ No b

/-- where a file belongs: the extension ".sds" is added to the path unless it is there -/
inductive Belongs (path : List Char) : List Char → Prop where
  | added (h : ¬ ['.', 's', 'd', 's'] <:+ path) : Belongs path (path ++ ['.', 's', 'd', 's'])
  | there (h : ['.', 's', 'd', 's'] <:+ path) : Belongs path path

end Verif.SdsPath.Spec

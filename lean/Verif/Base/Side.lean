/-
Model of ruy/side_pair.h:25-64.
-/
namespace Ruy

/-- side_pair.h:25-30. -/
inductive Side where
  | lhs
  | rhs
  deriving DecidableEq, Repr

/-- side_pair.h:32-34 (`OtherSide`). -/
def Side.other : Side → Side
  | .lhs => .rhs
  | .rhs => .lhs

/-- side_pair.h:38-64. -/
structure SidePair (α : Type _) where
  lhs : α
  rhs : α
  deriving DecidableEq, Repr

/-- side_pair.h:43-57 (`operator[]`). -/
def SidePair.get {α : Type _} (p : SidePair α) : Side → α
  | .lhs => p.lhs
  | .rhs => p.rhs

@[simp] theorem SidePair.get_lhs {α : Type _} (p : SidePair α) : p.get .lhs = p.lhs := rfl
@[simp] theorem SidePair.get_rhs {α : Type _} (p : SidePair α) : p.get .rhs = p.rhs := rfl

end Ruy

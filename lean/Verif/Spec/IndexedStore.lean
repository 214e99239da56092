import Verif.Model.IndexedStore
/-
What a vector with ids and bounded indices stands for.
-/
namespace Verif
variable {α : Type}

/-- without the ids -/
def IStore.abs (mx : Nat) (s : IStore α) : Store α := ⟨s.data.map fun e => if e.id = mx then none else some e.val, s.deleted⟩

/-- every element that is not deleted carries the number of its slot as id, and no slot that may be used again has the number that stands for "none" -/
structure IStore.Consistent (mx : Nat) (s : IStore α) : Prop where
  id : ∀ (i : Nat) (e : Slot α), s.data[i]? = some e → e.id = mx ∨ e.id = i
  free : mx ∉ s.deleted

end Verif

import Verif.Model.ShortWrites

/-!
# Destinations that take fewer bytes than they are offered
-/

namespace Pasture.Spec.Pnts

open Tiles3d

/-- The destination never fails, and takes at least `k` bytes at once (or all, if there are fewer on offer). -/
def TakesAtLeast (k : Nat) (d : Destination) : Prop := ∀ call offered, ∃ n, d.takes call offered = some n ∧ min offered k ≤ n

/-- A fresh destination that takes `k` bytes at once. -/
def taking (k : Nat) : Destination := ⟨[], 0, fun _ _ => some k⟩

end Pasture.Spec.Pnts

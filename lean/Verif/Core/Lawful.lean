import Verif.Core.Res

/-! `Res` satisfies the monad laws. -/

namespace LNLib
open Res

instance : LawfulMonad Res := LawfulMonad.mk' Res
  (id_map := fun x => by cases x <;> rfl)
  (pure_bind := fun _ _ => rfl)
  (bind_assoc := fun x _ _ => by cases x <;> rfl)

end LNLib

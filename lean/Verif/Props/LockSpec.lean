import Verif.Model.Step
/-
What of an account's tokens is locked.
-/
namespace Spec

/-- what `a` cannot spend: locks lie on the same tokens, so the larger of the stake and of the locks of other pallets -/
def locked (b : Bal) (a : AccountId) : Balance := max ((b.tee.get a).getD 0) ((b.other.get a).getD 0)

theorem locked_eq (b : Bal) (a : AccountId) : locked b a = b.frozen a := rfl

end Spec

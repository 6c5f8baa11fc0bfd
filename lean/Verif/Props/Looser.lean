import Verif.Proofs.Looser
import Verif.Props.Demo
/-
Property C119: raising limits is safe.
-/
variable {c c' : Cfg} {w w' : World}
set_option maxRecDepth 10000
open Spec

/-- With looser limits every call that is accepted is still accepted, with the very same result. -/
theorem C119_call (h : Looser c c') {x : Call} (hx : NoMandate x) {o : Origin} (hw : dispatch c x o w = .ok w') :
    dispatch c' x o w = .ok w' :=
  (dispatch_stays h hx o).out _ hw

/-- A mandate whose call is accepted stays so. -/
theorem C119_mandate (h : Looser c c') {x : Call} (hx : NoMandate x) {o : Origin} {w1 : World}
    (h1 : dispatch c x .root w = .ok w1) : dispatch c' (.mandate x) o w = dispatch c (.mandate x) o w := by
  have h2 := C119_call h hx h1
  cases o with
  | signed a => rfl
  | root => simp only [dispatch, h1, h2]
  | ext => simp only [dispatch, h1, h2]

/-- What happens at the start of a block, and everything else that is not a call, is the same. -/
theorem C119_hooks (h : Looser c c') (hc : c.Ok) (hr : Reach c w) (o : Op) (ho : ∀ u x, o ≠ .call u x) :
    step c' w o = step c w o :=
  step_same h (hr.subQ_len hc) o ho

/-- A chain whose limits are raised in runtime upgrades, any number of times, is only ever in states that a chain with
the latest limits reaches without upgrade.  So every property proved here of reachable states also holds of it. -/
theorem C119_upgrade (hc : c.Ok) (hu : Upgraded c w) : Reach c w := by
  induction hu with
  | init hg => exact .init hg
  | step o _ ho ih => exact .step o (ih hc) ho
  | upgrade _ h ih => exact (ih (h.ok.1 hc)).loose h (h.ok.1 hc)

/-- the demo chain with room for collections twice as large and half the bonding time -/
abbrev roomy : Cfg := { Demo.cfg with collLimit := 10, bonding := 5, aucLimit := 11, rentLimit := 12, trLimit := 13 }

theorem roomy_looser : Looser Demo.cfg roomy := by constructor <;> decide

/-- a collection of six NFTs is refused before the upgrade and accepted after it, in a world reached before it -/
example : Reach roomy (Demo.at_ [Demo.mint1]) ∧
    dispatch Demo.cfg (.nft (.createColl [] (some 6))) (.signed 1) (Demo.at_ [Demo.mint1]) =
      .error (.e "CollectionLimitExceededMaximumAllowed") ∧
    ∃ w, dispatch roomy (.nft (.createColl [] (some 6))) (.signed 1) (Demo.at_ [Demo.mint1]) = .ok w :=
  ⟨(Demo.reach [Demo.mint1] (by decide)).loose roomy_looser Demo.cfg_ok, rfl, _, rfl⟩

/-- a call accepted before the upgrade -/
example : ∃ w, dispatch Demo.cfg (.nft (.createColl [] (some 5))) (.signed 1) (Demo.at_ [Demo.mint1]) = .ok w ∧
    dispatch roomy (.nft (.createColl [] (some 5))) (.signed 1) (Demo.at_ [Demo.mint1]) = .ok w :=
  ⟨_, rfl, C119_call (x := .nft (.createColl [] (some 5))) roomy_looser trivial rfl⟩

/-- a mandate -/
example : dispatch roomy (.mandate (.root (.nftFee 7))) .ext (Demo.at_ []) =
    dispatch Demo.cfg (.mandate (.root (.nftFee 7))) .ext (Demo.at_ []) :=
  C119_mandate (x := .root (.nftFee 7)) roomy_looser trivial rfl

/-- a block after an upgrade -/
example : Upgraded roomy (step roomy (Demo.at_ [Demo.mint1]) .hookRent) :=
  .step .hookRent (.upgrade (.step Demo.mint1 (.init Demo.genesis) (by decide)) roomy_looser) trivial


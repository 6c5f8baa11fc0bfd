import Verif.Proofs.Deposit
import Verif.Props.Bidder
import Verif.Props.Rent
/-
Deposits for rentals come back unless their owner breaks off the rental.
-/
open Spec

variable {c : Cfg} {w : World}

/-! ## C107 -/

/-- C107: over any history, the tokens an account has in deposits for rentals at first plus what it deposits is what it has
in them at last plus what it gets back plus what it forfeits. -/
theorem C107 (hc : c.Ok) (hr : Reach c w) (l : List Op) (hl : ∀ o ∈ l, o.Ok c) (y : AccountId) :
    let s := fun f => total c f (truth w) (history c w l)
    pledges w y + s (putsDown y) = pledges (run c w l) y + s (recovers y) + s (forfeits y) := by
  show Balanced c y w (run c w l) (history c w l)
  induction l generalizing w with
  | nil => exact .nil rfl
  | cons o t ih =>
    have ho := hl o (by simp)
    exact (step_balanced hc hr o ho y).append (by rw [books_map]; exact step_seen hc hr o ho)
      (ih (hr.step o ho) fun x hx => hl x (by simp [hx]))

-- a rental that takes its full time
example := C107 Demo.cfg_ok (Demo.reach [] (by decide)) (rented ++ rentBlocks 10) (by decide) 2

theorem Spec.no_forfeits {l : List (Block × Event)} {y : AccountId} (h : ∀ b n, (b, .contractRevoked n y) ∉ l) (v : View) :
    total c (forfeits y) v l = 0 := by
  induction l generalizing v with
  | nil => rfl
  | cons x l ih =>
    obtain ⟨b, e⟩ := x
    simp only [total]
    rw [ih fun b n hm => h b n (by simp [hm])]
    cases e <;> first | rfl | skip
    rename_i n a
    simp only [forfeits]
    rw [if_neg]
    rintro rfl
    exact h b n (by simp)

/-- C107: whoever revokes no contract gets all deposits back. -/
theorem C107_all (hc : c.Ok) (hr : Reach c w) (l : List Op) (hl : ∀ o ∈ l, o.Ok c) (y : AccountId)
    (h : ∀ b n, (b, .contractRevoked n y) ∉ history c w l) (h0 : pledges w y = 0) (h1 : pledges (run c w l) y = 0) :
    let s := fun f => total c f (truth w) (history c w l)
    s (putsDown y) = s (recovers y) := by
  have := C107 hc hr l hl y
  simp only [h0, h1, no_forfeits h] at this ⊢
  omega

/-- C107: what is got back is paid.  When a contract ends, expires or is cancelled, the payments that its event stands for
(C90) give each party exactly their deposits. -/
theorem C107_paid {e : Event} {n : NFTId} (he : e = .contractCanceled n ∨ e = .contractEnded n ∨ e = .contractExpired n)
    (t : Tariff) (v : View) (now : Block) (y : AccountId) :
    potPays c.rentPot y (payments c.aucPot c.rentPot now t v e) = recovers y now v e := by
  have key : potPays c.rentPot y ((v.contract n).elim [] (givenBack c.rentPot)) = (v.contract n).elim 0 (pledge y) := by
    cases v.contract n with
    | none => rfl
    | some k =>
      simp only [Option.elim, givenBack, pledge, potPays]
      cases k.rentee with
      | none => by_cases h : k.renter = y <;> simp [h]
      | some r => by_cases h : k.renter = y <;> by_cases h' : r = y <;> simp [h, h']
  rcases he with rfl | rfl | rfl <;> exact key

-- the end of a contract
example := C107_paid (c := Demo.cfg) (e := .contractEnded 0) (.inr (.inl rfl)) (tariff Demo.w0) (truth (Demo.at_ rented)) 10 2

/-- C107: when a party revokes, the payments give each party what they get back, and the other party what is forfeited. -/
theorem C107_revoked (o : Op) {a : AccountId} {n : NFTId}
    (he : .contractRevoked n a ∈ emit c w o) (t : Tariff) (y : AccountId) :
    potPays c.rentPot y (payments c.aucPot c.rentPot w.now t (truth w) (.contractRevoked n a)) =
      recovers y w.now (truth w) (.contractRevoked n a) + compensation y w.now (truth w) (.contractRevoked n a) := by
  obtain ⟨k, r, hk, hr, hp⟩ := revoked_parties o he
  have ek : (truth w).contract n = some k := hk
  have hle : ∀ f, earned k w.now f ≤ inTokens f := by
    intro f; rw [earned_eq, inTokens_eq]; exact RentM.keptPart_le ..
  have h1 := hle k.renterFee
  have h2 := hle k.renteeFee
  clear hle
  simp only [payments, recovers, compensation, ek, Option.elim, hr, Option.getD_some, forfeit, pledge, potPays]
  by_cases e1 : k.renter = a <;> by_cases e2 : r = a <;> by_cases e3 : a = y <;> by_cases e4 : r = y <;>
    by_cases e5 : k.renter = y <;> simp_all <;> omega

set_option maxRecDepth 100000 in
/-- accounts 1 and 2 deposit 200 and 300 for a rental that runs out -/
example :
    let l := rented ++ rentBlocks 10
    let s := fun f => total Demo.cfg f (truth Demo.w0) (history Demo.cfg Demo.w0 l)
    Reach Demo.cfg Demo.w0 ∧ (∀ o ∈ l, o.Ok Demo.cfg) ∧ pledges Demo.w0 2 = 0 ∧ pledges (Demo.at_ rented) 2 = 300 ∧
    pledges (Demo.at_ l) 2 = 0 ∧ s (putsDown 2) = 300 ∧ s (recovers 2) = 300 ∧ s (forfeits 2) = 0 ∧
    s (putsDown 1) = 200 ∧ s (recovers 1) = 200 ∧ ∀ b n, (b, .contractRevoked n 2) ∉ history Demo.cfg Demo.w0 l := by
  refine ⟨Demo.reach [] (by decide), by decide, by decide, by decide, by decide, by decide, by decide, by decide, by decide,
    by decide, fun b n h => ?_⟩
  have e : (history Demo.cfg Demo.w0 (rented ++ rentBlocks 10)).all
      (fun x => match x.2 with | .contractRevoked .. => false | _ => true) = true := by decide
  simpa using List.all_eq_true.1 e _ h

set_option maxRecDepth 100000 in
/-- account 2 breaks off after three of ten blocks -/
example :
    let l := rented ++ rentBlocks 3 ++ [Demo.by_ 2 (.rent (.revoke 0))]
    let s := fun f => total Demo.cfg f (truth Demo.w0) (history Demo.cfg Demo.w0 l)
    pledges (Demo.at_ l) 2 = 0 ∧ s (putsDown 2) = 300 ∧ s (recovers 2) = 90 ∧ s (forfeits 2) = 210 ∧
    s (recovers 1) = 200 ∧ s (compensation 1) = 210 ∧
    emit Demo.cfg (Demo.at_ (rented ++ rentBlocks 3)) (Demo.by_ 2 (.rent (.revoke 0))) = [.contractRevoked 0 2] :=
  ⟨by decide, by decide, by decide, by decide, by decide, by decide, rfl⟩

-- nobody revokes, and account 2 gets everything back
example := C107_all Demo.cfg_ok (Demo.reach [] (by decide)) (rented ++ rentBlocks 10) (by decide) 2
  (fun b n h => by
    have e : (history Demo.cfg Demo.w0 (rented ++ rentBlocks 10)).all
        (fun x => match x.2 with | .contractRevoked .. => false | _ => true) = true := by decide
    simpa using List.all_eq_true.1 e _ h) (by decide) (by decide)

import Verif.Proofs.Shortfall
/-
C134: how far the auction pallet's account can fall behind what it owes.
-/
variable {c : Cfg} {w w' : World} {a : AccountId}

/-- C134: along every history, whatever fails in it, what the auction pallet owes exceeds what its account holds by at most the
highest bids of the auctions whose payout failed, and less than an existential deposit each time the account was emptied while
something was owed. -/
theorem C134 (hc : c.Ok) (hg : Genesis c w) (l : List Op) (hl : ∀ o ∈ l, o.Ok c) :
    Spec.owed (run c w l) ≤ (run c w l).bal.freeOf c.aucPot + Spec.damage c w l := by
  have key : ∀ (l : List Op) (w : World) (D : Balance), Reach c w → (∀ o ∈ l, o.Ok c) →
      Spec.owed w ≤ w.bal.freeOf c.aucPot + D →
      Spec.owed (run c w l) ≤ (run c w l).bal.freeOf c.aucPot + (D + Spec.damage c w l) := by
    intro l
    induction l with
    | nil => intro w D _ _ h; exact h
    | cons o t ih =>
      intro w D hr hl h
      have ho := hl o (by simp)
      have := ih (step c w o) (D + (Spec.unpaid w (step c w o) + Spec.dusted c w (step c w o))) (hr.step o ho)
        (fun y hy => hl y (by simp [hy])) (by
          obtain ⟨δ, h1, h2⟩ := step_lost hc hr o ho
          by_cases e : Spec.owed (step c w o) = 0
          · omega
          · unfold Spec.dusted AucM.Dust at *
            split
            · omega
            · rename_i h3
              rcases h2 with h2 | ⟨h2, _, h4⟩
              · omega
              · exact absurd ⟨h4, h2, e⟩ h3)
      show Spec.owed (run c (step c w o) t) ≤ (run c (step c w o) t).bal.freeOf c.aucPot + _
      simp only [Spec.damage]
      omega
  have h0 : Spec.owed w = 0 := by
    obtain ⟨e1, _, e3, _⟩ := hg.auc
    unfold Spec.owed
    rw [e1, e3]; rfl
  have := key l w 0 (Reach.init hg) hl (by omega)
  omega

-- the payout of an auction fails: 100 are owed, the account is empty; the bid was 100, and up to 9 may be lost as dust
example : Spec.owed (Demo.at_ (doomed ++ blocks 10)) = 100 ∧
    (Demo.at_ (doomed ++ blocks 10)).bal.freeOf Demo.cfg.aucPot = 0 ∧
    Spec.damage Demo.cfg Demo.w0 (doomed ++ blocks 10) = 109 := by decide +kernel

-- no payout fails
example : Spec.owed (Demo.at_ (auctioned ++ blocks 10)) = 300 ∧
    Spec.damage Demo.cfg Demo.w0 (auctioned ++ blocks 10) = 0 := by decide +kernel

example := C134 Demo.cfg_ok Demo.genesis (doomed ++ blocks 10) (by decide)

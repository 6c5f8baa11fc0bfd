import Verif.Props.Size
import Verif.Props.Bridge
import Verif.Props.Rescue
/-
C139: what the configuration of a runtime decides, without the pallets checking it.
-/
variable {c : Cfg} {w w' : World}
set_option maxRecDepth 10000

/-- **C139, auctions switched off**: with a shortest duration above the longest, or with room for no auction, there never is
an auction. -/
theorem C139_no_auctions (h : c.maxDur < c.minDur ∨ c.aucLimit = 0) (hr : Reach c w) (n : NFTId) :
    w.auc.auctions.get n = none := by
  induction hr generalizing n with
  | init hg => rw [hg.auc.1]; rfl
  | @step w o hr ho ih =>
    rcases step_auc_case w o ho with ⟨a, y, rfl, _, hact⟩ | ⟨rfl, hp⟩ | e
    · generalize step c w _ = w' at hact ⊢
      cases hact with
      | create g1 g2 g3 g4 _ _ _ _ _ _ _ _ hq =>
        exfalso
        rcases h with h | h
        · omega
        · obtain ⟨hl, _⟩ := Queue.insert_some hq
          omega
      | cancel _ hx => rw [ih] at hx; simp at hx
      | end_ _ hx => rw [ih] at hx; simp at hx
      | addBid hx => rw [ih] at hx; simp at hx
      | removeBid hx => rw [ih] at hx; simp at hx
      | buyItNow _ hx => rw [ih] at hx; simp at hx
      | claim => exact ih n
    · cases hx : (step c w .hookAuc).auc.auctions.get n with
      | none => rfl
      | some x => have := AucM.pops_sub hp hx; rw [ih] at this; simp at this
    · rw [e]; exact ih n

/-- **C139, bids switched off**: with room for no bid, no bid is ever accepted. -/
theorem C139_no_bids (h : c.bidLimit = 0) (hr : Reach c w) {n : NFTId} {x : Auction}
    (hx : w.auc.auctions.get n = some x) : x.bids = [] := by
  induction hr generalizing n x with
  | init hg => rw [hg.auc.1] at hx; simp at hx
  | @step w o hr ho ih =>
    rcases step_auc_case w o ho with ⟨a, y, rfl, _, hact⟩ | ⟨rfl, hp⟩ | e
    · generalize step c w _ = w' at hact hx
      cases hact with
      | create =>
        simp only [FMap.get_insert] at hx
        split at hx
        · simp at hx; rw [← hx]
        · exact ih hx
      | cancel =>
        simp only [FMap.get_erase] at hx
        split at hx
        · simp at hx
        · exact ih hx
      | end_ =>
        simp only [FMap.get_erase] at hx
        split at hx
        · simp at hx
        · exact ih hx
      | buyItNow =>
        simp only [FMap.get_erase] at hx
        split at hx
        · simp at hx
        · exact ih hx
      | addBid hy _ _ _ _ _ hi =>
        exfalso
        rw [ih hy] at hi
        simp [AucM.removeBid, AucM.insertBid, h] at hi
      | removeBid hy =>
        simp only [FMap.get_insert] at hx
        split at hx
        · simp at hx
          rw [← hx]
          show AucM.removeBid _ _ = []
          rw [ih hy]
          rfl
        · exact ih hx
      | claim => exact ih hx
    · exact ih (AucM.pops_sub hp hx)
    · rw [e] at hx; exact ih hx

/-- **C139, rentals switched off**: with room for no contract, there never is one. -/
theorem C139_no_rentals (hc : c.Ok) (h : c.rentLimit = 0) (hr : Reach c w) (n : NFTId) :
    w.rent.contracts.get n = none := by
  cases hk : w.rent.contracts.get n with
  | none => rfl
  | some k =>
    obtain ⟨_, h2, _, _, _, h3⟩ := C30 hc hr
    obtain ⟨b, hb, _⟩ := h2 n k hk
    rw [h] at h3
    have e1 : w.rent.availQ = [] := List.eq_nil_of_length_eq_zero (by omega)
    have e2 : w.rent.fixedQ = [] := List.eq_nil_of_length_eq_zero (by omega)
    have e3 : w.rent.subQ = [] := List.eq_nil_of_length_eq_zero (by omega)
    simp [Spec.entries, e1, e2, e3] at hb

/-- **C139, timed transmissions switched off**: with room for no scheduled transmission, none is Demo.vowed for a block. -/
theorem C139_no_transmissions (hc : c.Ok) (h : c.trLimit = 0) (hr : Reach c w) {n : NFTId} {x} (b : Block)
    (hx : w.tr.trans.get n = some x) : x.protocol ≠ .atBlock b ∧ x.protocol ≠ .atBlockWithReset b := by
  have hl := (C42_sorted hc hr).2.2
  rw [h] at hl
  have e : w.tr.queue = [] := List.eq_nil_of_length_eq_zero (by omega)
  have key := C42_scheduled hc hr n b
  rw [e] at key
  constructor
  · intro hp; exact absurd (key.2 ⟨x, hx, Or.inl hp⟩) (by simp)
  · intro hp; exact absurd (key.2 ⟨x, hx, Or.inr (Or.inl hp)⟩) (by simp)

/-- **C139, the bridge switched off**: with room for no vote, no vote is accepted, so nothing is minted by relayers. -/
theorem C139_no_votes (h : c.relayerLimit = 0) (a : AccountId) (k : ChainId) (t : Transfer) :
    dispatch c (.br (.vote k t)) (.signed a) w ≠ .ok w' := by
  intro hw
  replace hw : BrM.voteFor c w a k t = .ok w' := hw
  simp only [BrM.voteFor] at hw
  inv_ok at hw
  obtain ⟨x, _, _, hv, _⟩ := hw
  cases hq : w.br.votes.get (k, t) with
  | none => rw [hq] at hv; simp only [BrM.vote] at hv; inv_ok at hv; omega
  | some p => rw [hq] at hv; simp only [BrM.vote] at hv; inv_ok at hv; omega

/-! Configurations that differ from the usual example in a single value. -/

namespace Demo

/-- the example genesis is one for every configuration with the same existential deposit -/
theorem genesis_of {d : Cfg} (he : d.ed = cfg.ed) : Genesis d w0 :=
  ⟨⟨genesis.bal.1, fun _ _ => rfl, fun a v h => by rw [he]; exact genesis.bal.3 a v h, genesis.bal.4, genesis.bal.5⟩,
    rfl, genesis.nft, genesis.mkt, genesis.auc, genesis.rent, genesis.tr, genesis.tee, genesis.br, rfl, rfl⟩

instance (d : Cfg) (o : Op) : Decidable (o.Ok d) := by unfold Op.Ok; split <;> infer_instance

theorem reach_of (d : Cfg) (he : d.ed = cfg.ed) (l : List Op) (hl : ∀ o ∈ l, o.Ok d) : Reach d (run d w0 l) :=
  (Reach.init (genesis_of he)).run l hl

/-- the example with one account for auctions and rentals -/
def mixAR : Cfg := { cfg with rentPot := 101 }
/-- the example with one account for auctions and enclave rewards -/
def mixAT : Cfg := { cfg with teePot := 101 }
/-- the example with one account for auctions and staking rewards -/
def mixAW : Cfg := { cfg with rewPot := 101 }
/-- the example with one account for rentals and enclave rewards -/
def mixRT : Cfg := { cfg with teePot := 102 }
/-- the example with one account for rentals and staking rewards -/
def mixRW : Cfg := { cfg with rewPot := 102 }
/-- the example with room for no bid -/
def bidless : Cfg := { cfg with bidLimit := 0 }
/-- the example with a shortest duration above the longest -/
def hurried : Cfg := { cfg with maxDur := 4 }

/-- A rental deposit of 200 and an auction whose payout fails half way, as the seller's account is gone. The auction is then
concluded with a second bid, and the first bidder collects the refund. -/
abbrev mixed : List Op :=
  [mint1, by_ 4 (.nft (.createNft [1] .zero none false)), by_ 3 (.mkt (.create .pub)),
   by_ 3 (.mkt (.setConfig 0 (.set (.flat 95)) .noop .noop .noop .noop)),
   by_ 4 (.rent (.create 1 (.fixed 50) (.auto none) true (.tokens 100) (.fixed 200) (.fixed 300))),
   by_ 1 (.auc (.create 0 0 0 10 95 none)), by_ 2 (.auc (.addBid 0 100)), by_ 1 (.bal 3 9995 .allowDeath)] ++
  ticks 10 ++ [.hookAuc, by_ 3 (.bal 1 100 .keepAlive), by_ 5 (.auc (.addBid 0 200)), by_ 1 (.auc (.end_ 0)),
   by_ 2 (.auc .claim)]

end Demo

/-- **C139, one account for auctions and rentals: a failed payout of an auction costs rental deposits (C28 fails).** -/
theorem C139_shared_auction_rent : ∃ c w, 0 < c.ed ∧ 0 < c.bidLimit ∧ c.aucPot = c.rentPot ∧
    [c.aucPot, c.teePot, c.rewPot].Nodup ∧
    Reach c w ∧ ¬ Spec.rentDeposits w ≤ w.bal.freeOf c.rentPot :=
  ⟨Demo.mixAR, run Demo.mixAR Demo.w0 (Demo.mixed), by decide, by decide, rfl, by decide,
    Demo.reach_of Demo.mixAR rfl (Demo.mixed) (by decide), by decide +kernel⟩

/-- **C139, one account for rentals and enclave rewards: rewards are paid from rental deposits (C28 fails).** -/
theorem C139_shared_rent_tee : ∃ c w, 0 < c.ed ∧ 0 < c.bidLimit ∧ c.rentPot = c.teePot ∧
    [c.aucPot, c.rentPot, c.rewPot].Nodup ∧
    Reach c w ∧ ¬ Spec.rentDeposits w ≤ w.bal.freeOf c.rentPot :=
  ⟨Demo.mixRT, run Demo.mixRT Demo.w0 (rented ++ Demo.claims), by decide, by decide, rfl, by decide,
    Demo.reach_of Demo.mixRT rfl (rented ++ Demo.claims) (by decide), by decide +kernel⟩

/-- **C139, one account for rentals and staking rewards: era payouts burn rental deposits (C28 fails).** -/
theorem C139_shared_rent_staking : ∃ c w, 0 < c.ed ∧ 0 < c.bidLimit ∧ c.rentPot = c.rewPot ∧
    [c.aucPot, c.rentPot, c.teePot].Nodup ∧
    Reach c w ∧ ¬ Spec.rentDeposits w ≤ w.bal.freeOf c.rentPot :=
  ⟨Demo.mixRW, run Demo.mixRW Demo.w0 (rented ++ [Op.eraPayout]), by decide, by decide, rfl, by decide,
    Demo.reach_of Demo.mixRW rfl (rented ++ [Op.eraPayout]) (by decide), by decide +kernel⟩

/-- **C139, one account for auctions and enclave rewards: rewards are paid from bids, without any failed payout (C20 fails).** -/
theorem C139_shared_auction_tee : ∃ c w, 0 < c.ed ∧ 0 < c.bidLimit ∧ c.aucPot = c.teePot ∧
    [c.aucPot, c.rentPot, c.rewPot].Nodup ∧
    Reach c w ∧ ¬ Spec.Covered c 0 w :=
  ⟨Demo.mixAT, run Demo.mixAT Demo.w0 (auctioned ++ Demo.claims), by decide, by decide, rfl, by decide,
    Demo.reach_of Demo.mixAT rfl (auctioned ++ Demo.claims) (by decide), by unfold Spec.Covered; decide +kernel⟩

/-- **C139, one account for auctions and staking rewards: era payouts burn bids, without any failed payout (C20 fails).** -/
theorem C139_shared_auction_staking : ∃ c w, 0 < c.ed ∧ 0 < c.bidLimit ∧ c.aucPot = c.rewPot ∧
    [c.aucPot, c.rentPot, c.teePot].Nodup ∧
    Reach c w ∧ ¬ Spec.Covered c 0 w :=
  ⟨Demo.mixAW, run Demo.mixAW Demo.w0 (auctioned ++ [Op.eraPayout]), by decide, by decide, rfl, by decide,
    Demo.reach_of Demo.mixAW rfl (auctioned ++ [Op.eraPayout]) (by decide), by unfold Spec.Covered; decide +kernel⟩

/-- **C139, room for no bid**: a bid that would otherwise be accepted makes the call panic (C63 fails). -/
theorem C139_bid_panics : ∃ c w, 0 < c.ed ∧ c.bidLimit = 0 ∧ [c.aucPot, c.rentPot, c.teePot, c.rewPot].Nodup ∧ Reach c w ∧
    ∃ s, dispatch c (.auc (.addBid 0 150)) (.signed 2) w = .error (.panic s) :=
  ⟨Demo.bidless, run Demo.bidless Demo.w0 (auctioned.take 4), by decide, rfl, by decide,
    Demo.reach_of Demo.bidless rfl (auctioned.take 4) (by decide), _, rfl⟩

-- the same bid with room for two
example : ∃ w', dispatch Demo.cfg (.auc (.addBid 0 150)) (.signed 2) (Demo.at_ (auctioned.take 4)) = .ok w' := ⟨_, rfl⟩

-- the auction of the example is refused by a configuration without auctions, and the rest goes on
example : Demo.hurried.maxDur < Demo.hurried.minDur ∧ Reach Demo.hurried (run Demo.hurried Demo.w0 auctioned) ∧
    (run Demo.hurried Demo.w0 auctioned).auc.auctions.get 0 = none ∧ (Demo.at_ auctioned).auc.auctions.get 0 ≠ none ∧
    (run Demo.hurried Demo.w0 auctioned).nfts.get 0 ≠ none :=
  have hr : Reach Demo.hurried (run Demo.hurried Demo.w0 auctioned) :=
    Demo.reach_of Demo.hurried rfl auctioned (by decide)
  ⟨by decide, hr, C139_no_auctions (Or.inl (by decide)) hr 0, by decide, by decide⟩

example : ∃ x, (run Demo.bidless Demo.w0 auctioned).auc.auctions.get 0 = some x ∧ x.bids = [] :=
  ⟨_, rfl, C139_no_bids (c := Demo.bidless) (n := 0) rfl (Demo.reach_of Demo.bidless rfl auctioned (by decide)) rfl⟩

-- the rental of the example with room for no contract
example : (run { Demo.cfg with rentLimit := 0 } Demo.w0 rented).rent.contracts.get 0 = none :=
  C139_no_rentals (c := { Demo.cfg with rentLimit := 0 }) (by constructor <;> decide) rfl (Demo.reach_of { Demo.cfg with rentLimit := 0 } rfl rented (by decide)) 0

/-- account 1 promises its NFT for a block, and then on consent -/
abbrev Demo.vowed : List Op :=
  [Demo.mint1, Demo.by_ 1 (.tr (.set 0 2 (.atBlock 50) .none)), Demo.by_ 1 (.tr (.set 0 2 (.onConsent [3] 1) .none))]

-- with room for no scheduled transmission, the first promise is refused and the second is not
example : ∃ x, (run { Demo.cfg with trLimit := 0 } Demo.w0 Demo.vowed).tr.trans.get 0 = some x ∧
    x.protocol = .onConsent [3] 1 ∧ x.protocol ≠ .atBlock 50 :=
  ⟨_, rfl, rfl, (C139_no_transmissions (c := { Demo.cfg with trLimit := 0 }) (n := 0) (by constructor <;> decide) rfl
    (Demo.reach_of { Demo.cfg with trLimit := 0 } rfl Demo.vowed (by decide)) 50 rfl).1⟩

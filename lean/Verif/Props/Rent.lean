import Verif.Proofs.Payout
import Verif.Proofs.Hist
import Verif.Props.Market
/-
Properties C28–C36.
-/
variable {c : Cfg} {w w' : World} {a : AccountId}
set_option maxRecDepth 10000

/- Specification -/
namespace Spec

/-- the tokens of a cancellation deposit -/
def tokensOf : CancelFee → Balance
  | .none => 0
  | .fixed x => x
  | .flexible x => x
  | .nft _ => 0

/-- the NFT of a cancellation deposit -/
def nftOf : CancelFee → Option NFTId
  | .nft n => some n
  | _ => none

/-- the tokens both parties have deposited for a contract; the rentee deposits when the contract
starts -/
def deposited (k : Contract) : Balance :=
  tokensOf k.renterFee + if k.rentee.isSome then tokensOf k.renteeFee else 0

/-- the tokens deposited for all contracts -/
def rentDeposits (w : World) : Balance := w.rent.contracts.sumBy fun _ k => deposited k

/-- NFT `m` is a deposit for contract `k` -/
def Deposit (k : Contract) (m : NFTId) : Prop :=
  nftOf k.renterFee = some m ∨ k.rentee ≠ none ∧ nftOf k.renteeFee = some m

/-- no pallet has a claim on the NFT -/
def Unencumbered (s : NFTState) : Prop :=
  s.listed = false ∧ s.delegated = false ∧ s.soulbound = false ∧ s.syncSecret = false ∧
    s.rented = false ∧ s.syncCapsule = false ∧ s.transmission = false

/-- the three schedules of the rent pallet -/
inductive Schedule where | available | fixed | subscription
deriving DecidableEq

/-- the schedule a contract belongs to -/
def scheduleOf (k : Contract) : Schedule :=
  match k.rentee, k.duration with
  | none, _ => .available
  | some _, .fixed _ => .fixed
  | some _, .sub _ => .subscription

/-- the entries of NFT `n` in all schedules -/
def entries (w : World) (n : NFTId) : List (Schedule × Block) :=
  (w.rent.availQ.filter fun e => e.1 = n).map (fun e => (.available, e.2)) ++
  (w.rent.fixedQ.filter fun e => e.1 = n).map (fun e => (.fixed, e.2)) ++
  (w.rent.subQ.filter fun e => e.1 = n).map (fun e => (.subscription, e.2))

/-- what `y` gets back when contract `k` ends without fault -/
def refund (k : Contract) (y : AccountId) : Balance :=
  gets y k.renter (tokensOf k.renterFee) +
    match k.rentee with
    | some r => gets y r (tokensOf k.renteeFee)
    | none => 0

/-- `s` pays `v` in total, of which everybody else gets `g`; if less than the existential deposit
remains, the remainder `δ` is lost -/
def PaysOut (c : Cfg) (s : AccountId) (v : Balance) (g : AccountId → Balance) (b b' : Bal) : Prop :=
  ∃ δ, (∀ y, y ≠ s → b'.freeOf y = b.freeOf y + g y) ∧ b'.freeOf s + v + δ = b.freeOf s ∧
    (δ = 0 ∨ b'.freeOf s = 0 ∧ δ < c.ed)

/-- the contract has run its course: it was not rented in time, its fixed duration is over, or a
period of the subscription is over and it is not renewed -/
def RunOut (c : Cfg) (w : World) (k : Contract) : Prop :=
  match k.rentee, k.start, k.duration with
  | none, _, _ => k.creation + c.rentAvail ≤ w.now
  | some _, some s, .fixed d => s + d ≤ w.now
  | some r, some s, .sub u => u.newTerms = true ∨ s + u.maxDur ≤ w.now ∨
      ∃ fee e, k.rentFee = .tokens fee ∧ w.bal.transfer c.ed r k.renter fee .keepAlive = .error e
  | some _, none, _ => False

/-- contract `k` of NFT `n` ends without fault: all deposits are back, the NFT is free and with its
renter, the contract is gone, and nothing else changed -/
structure Ended (c : Cfg) (n : NFTId) (k : Contract) (w w' : World) : Prop where
  present : w.rent.contracts.get n = some k
  due : RunOut c w k
  gone : ∀ m, w'.rent.contracts.get m = if m = n then none else w.rent.contracts.get m
  tokens : PaysOut c c.rentPot (deposited k) (refund k) w.bal w'.bal
  nft : ∃ d, w.nfts.get n = some d ∧ d.owner = k.renter ∧
    w'.nfts.get n = some { d with st := { d.st with rented := false } }
  renterNft : ∀ m, nftOf k.renterFee = some m → m ≠ n →
    ∃ d, w.nfts.get m = some d ∧ w'.nfts.get m = some { d with owner := k.renter }
  renteeNft : ∀ m r, k.rentee = some r → nftOf k.renteeFee = some m →
    ∃ d, w.nfts.get m = some d ∧ w'.nfts.get m = some { d with owner := r }
  others : ∀ m, m ≠ n → ¬ Deposit k m → w'.nfts.get m = w.nfts.get m

/-- the next period of the subscription `k` on NFT `n` begins: exactly the rent fee moves from rentee
to renter -/
structure Renewed (c : Cfg) (n : NFTId) (k : Contract) (w w' : World) : Prop where
  present : w.rent.contracts.get n = some k
  terms : ∃ r s u fee, k.rentee = some r ∧ k.start = some s ∧ k.duration = .sub u ∧
    k.rentFee = .tokens fee ∧ u.newTerms = false ∧ w.now < s + u.maxDur ∧
    ∀ y, w'.bal.freeOf y + gets y r fee = w.bal.freeOf y + gets y k.renter fee
  contracts : w'.rent.contracts = w.rent.contracts
  nfts : w'.nfts = w.nfts

/-- what the first `x` of a flexible deposit the revoker keeps: the completed percentage of the full
duration -/
def kept (k : Contract) (now : Block) : CancelFee → Balance
  | .flexible x =>
    let elapsed := now - k.start.getD 0
    let total := match k.duration with
      | .fixed d => d
      | .sub u => u.maxDur
    (Permill.fromPercent (min (elapsed * 100) (2 ^ 32 - 1) / total)).mul x
  | _ => 0

end Spec

/- demo chains -/

/-- NFT 0 of account 1 is offered for a fixed duration of 10 at a fee of 100, deposits 200 and 300;
account 2 rents it -/
abbrev rented : List Op :=
  [Demo.mint1, Demo.by_ 1 (.rent (.create 0 (.fixed 10) (.auto none) true (.tokens 100)
    (.fixed 200) (.flexible 300))), Demo.by_ 2 (.rent (.rent 0 0))]

/-- the same as a subscription with period 5 and maximal duration 50 -/
abbrev subscribed : List Op :=
  [Demo.mint1, Demo.by_ 1 (.rent (.create 0 (.sub 5 (some 50) true) (.auto none) true (.tokens 100)
    (.fixed 200) (.fixed 300))), Demo.by_ 2 (.rent (.rent 0 0))]

/-- account 1 deposits NFT 1 for the contract on NFT 0, and account 2 its NFT 2 -/
abbrev deposits : List Op :=
  [Demo.mint1, Demo.mint1, Demo.by_ 2 (.nft (.createNft [1] .zero none false)),
   Demo.by_ 1 (.rent (.create 0 (.fixed 10) (.auto none) true (.tokens 100) (.nft 1) (.nft 2))),
   Demo.by_ 2 (.rent (.rent 0 0))]

/-- `k` blocks, each beginning with the rent hook -/
abbrev rentBlocks (k : Nat) : List Op := (List.replicate k [Op.tick, .hookRent]).flatten

/- links between the specification and the lemmas -/

theorem Spec.tokensOf_eq (f : CancelFee) : Spec.tokensOf f = RentM.feeTokens f := by
  cases f <;> rfl

theorem Spec.nftOf_eq (f : CancelFee) : Spec.nftOf f = RentM.feeNft f := by cases f <;> rfl

theorem Spec.deposited_eq (k : Contract) : Spec.deposited k = RentM.owed k := by
  unfold Spec.deposited RentM.owed RentM.renteeTokens
  rw [Spec.tokensOf_eq, Spec.tokensOf_eq]

theorem Spec.rentDeposits_eq : Spec.rentDeposits w = RentM.owedAll w :=
  FMap.sumBy_congr fun _ k _ => Spec.deposited_eq k

theorem Spec.deposit_iff {k : Contract} {n m : NFTId} (h : m ≠ n) :
    Spec.Deposit k m ↔ RentM.deposits n k m := by
  unfold Spec.Deposit RentM.deposits RentM.renteeNft
  rw [Spec.nftOf_eq, Spec.nftOf_eq]
  cases k.rentee <;> simp [h]

theorem Spec.unencumbered_iff (s : NFTState) : Spec.Unencumbered s ↔ RentM.valid s = true := by
  unfold Spec.Unencumbered RentM.valid
  simp only [Bool.and_eq_true, Bool.not_eq_true']
  tauto

theorem Spec.kept_eq (k : Contract) (now : Block) (f : CancelFee) :
    Spec.kept k now f = RentM.keptPart k now f := by
  cases f <;> simp [Spec.kept, RentM.keptPart, RentM.flexible, U32MAX]
  cases k.duration <;> rfl

theorem Spec.PaysOut.of {s v g g'} {b b' : Bal} (h : Bal.Out c.ed s v g b b') (hg : ∀ y, g y = g' y) :
    Spec.PaysOut c s v g' b b' := by
  obtain ⟨δ, h1, h2, h3, _⟩ := h
  exact ⟨δ, fun y hy => by rw [h1 y hy, hg], h2, h3⟩

theorem rent_did {x : RentM.Call} (h : dispatch c (.rent x) (.signed a) w = .ok w') :
    RentM.Did c w a x w' := RentM.call_did (c := c) (w := w) (a := a) (x := x) h

/- C28 -/

/-- The rent pallet's account always covers all token deposits of renters and of rentees. -/
theorem C28 (hc : c.Ok) (hr : Reach c w) : Spec.rentDeposits w ≤ w.bal.freeOf c.rentPot := by
  rw [Spec.rentDeposits_eq]; exact (hr.inv hc).rent.solv

example : Reach Demo.cfg (Demo.at_ rented) ∧ Spec.rentDeposits (Demo.at_ rented) = 500 ∧
    (Demo.at_ rented).bal.freeOf 102 = 500 :=
  ⟨Demo.reach _ (by decide), by decide, by decide⟩

/- C29 -/

/-- An NFT deposited for a contract on another NFT is owned by the rent pallet's account, no pallet has
a claim on it, and it is the deposit of no other contract nor of the other party.
Missing: the case that a renter names the contract's own NFT as cancellation deposit (`C29_fails`). -/
theorem C29_partial (hc : c.Ok) (hr : Reach c w) {n m : NFTId} {k : Contract}
    (hk : w.rent.contracts.get n = some k) (hm : Spec.Deposit k m) (hne : m ≠ n) :
    (∃ d, w.nfts.get m = some d ∧ d.owner = c.rentPot ∧ Spec.Unencumbered d.st) ∧
    w.rent.contracts.get m = none ∧
    (∀ n' k', w.rent.contracts.get n' = some k' → Spec.Deposit k' m → m ≠ n' → n' = n) ∧
    ¬ (Spec.nftOf k.renterFee = some m ∧ k.rentee ≠ none ∧ Spec.nftOf k.renteeFee = some m) := by
  have hi := (hr.inv hc).rent
  have hd := (Spec.deposit_iff hne).1 hm
  have hheld := (hi.dep.ok n k hk).held m hd
  refine ⟨?_, ?_, ?_, ?_⟩
  · obtain ⟨d, h1, h2, h3⟩ := hheld
    exact ⟨d, h1, h2, (Spec.unencumbered_iff _).2 h3⟩
  · cases e : w.rent.contracts.get m with
    | none => rfl
    | some k' => exact absurd rfl (hi.dep.held_ne e hheld)
  · intro n' k' hk' hm' hne'
    exact (hi.dep.disj n k n' k' m hk hk' hd ((Spec.deposit_iff hne').1 hm')).symm
  · rintro ⟨h1, h2, h3⟩
    rw [Spec.nftOf_eq] at h1 h3
    refine (hi.dep.ok n k hk).diff m ?_ h1
    unfold RentM.renteeNft
    cases hr : k.rentee with
    | none => exact absurd hr h2
    | some r => simpa using h3

/-- The rentee's deposit is never the contract's own NFT. -/
theorem C29_rentee (hc : c.Ok) (hr : Reach c w) {n : NFTId} {k : Contract}
    (hk : w.rent.contracts.get n = some k) (hr' : k.rentee ≠ none) : Spec.nftOf k.renteeFee ≠ some n := by
  have hi := (hr.inv hc).rent
  have := (hi.dep.ok n k hk).self
  unfold RentM.renteeNft at this
  rw [Spec.nftOf_eq]
  cases h : k.rentee with
  | none => exact absurd h hr'
  | some r => rw [h] at this; simpa using this

/-- a chain with deposited NFTs -/
theorem C29_demo : Reach Demo.cfg (Demo.at_ deposits) ∧
    (∃ k, (Demo.at_ deposits).rent.contracts.get 0 = some k ∧ k.renterFee = .nft 1 ∧
      k.renteeFee = .nft 2 ∧ k.rentee = some 2) ∧
    ((Demo.at_ deposits).nfts.get 1).map (·.owner) = some 102 ∧
    ((Demo.at_ deposits).nfts.get 2).map (·.owner) = some 102 :=
  ⟨Demo.reach _ (by decide), ⟨_, rfl, by decide, by decide, by decide⟩, by decide, by decide⟩

/-- account 1 creates a contract on NFT 0 with that NFT as its own cancellation deposit -/
abbrev selfDeposit : List Op :=
  [Demo.mint1, Demo.by_ 1 (.rent (.create 0 (.fixed 10) (.auto none) true (.tokens 100) (.nft 0) .none))]

/-- The deposit of a renter can be the contract's own NFT, which then stays with the renter: the code
does not hold it in escrow. -/
theorem C29_fails : ∃ c w n k d, c.Ok ∧ Reach c w ∧ w.rent.contracts.get n = some k ∧
    Spec.Deposit k n ∧ w.nfts.get n = some d ∧ d.owner ≠ c.rentPot :=
  ⟨Demo.cfg, Demo.at_ selfDeposit, 0, _, _, Demo.cfg_ok, Demo.reach _ (by decide), rfl,
    Or.inl (by decide), rfl, by decide⟩

/- C30 -/

theorem Queue.filter_nil {q : Queue} {n : NFTId} (h : n ∉ Queue.ids q) :
    (q.filter fun e => e.1 = n) = [] := by
  rw [List.filter_eq_nil_iff]
  rintro ⟨m, b⟩ hm he
  simp at he; subst he
  exact h (Queue.mem_ids.2 ⟨b, hm⟩)

theorem Queue.filter_one {q : Queue} (hq : q.WF) {n : NFTId} {b : Block} (h : (n, b) ∈ q) :
    (q.filter fun e => e.1 = n) = [(n, b)] := by
  obtain ⟨i, pre, post, rfl, _⟩ := Queue.exists_at h
  have hnd := hq.nd
  simp only [Queue.ids, List.map_append, List.map_cons] at hnd
  rw [List.nodup_append, List.nodup_cons] at hnd
  rw [List.filter_append, List.filter_cons_of_pos (by simp), Queue.filter_nil, Queue.filter_nil]
  · rfl
  · exact hnd.2.1.1
  · intro hm
    exact hnd.2.2 _ hm n (by simp) rfl

/-- Every contract has exactly one entry in exactly the schedule of its kind; nothing else is
scheduled; schedules are sorted by block; together they stay within the limit. -/
theorem C30 (hc : c.Ok) (hr : Reach c w) :
    (∀ n, w.rent.contracts.get n = none → Spec.entries w n = []) ∧
    (∀ n k, w.rent.contracts.get n = some k → ∃ b, Spec.entries w n = [(Spec.scheduleOf k, b)] ∧
      (k.rentee = none → k.start = none ∧ b = k.creation + c.rentAvail) ∧
      (k.rentee ≠ none → ∃ s, k.start = some s ∧ (∀ d, k.duration = .fixed d → b = s + d) ∧ s < b)) ∧
    (w.rent.availQ.Pairwise fun x y => x.2 ≤ y.2) ∧ (w.rent.fixedQ.Pairwise fun x y => x.2 ≤ y.2) ∧
    (w.rent.subQ.Pairwise fun x y => x.2 ≤ y.2) ∧
    w.rent.availQ.length + w.rent.fixedQ.length + w.rent.subQ.length ≤ c.rentLimit := by
  have hi := (hr.inv hc).rent.q
  refine ⟨?_, ?_, hi.wfA.sorted, hi.wfF.sorted, hi.wfS.sorted, by have := hi.len; omega⟩
  · intro n hn
    unfold Spec.entries
    rw [Queue.filter_nil, Queue.filter_nil, Queue.filter_nil]
    · rfl
    · rw [Queue.mem_ids]; rintro ⟨b, hb⟩
      obtain ⟨k, _, _, h, _⟩ := hi.inS n b hb
      rw [hn] at h; simp at h
    · rw [Queue.mem_ids]; rintro ⟨b, hb⟩
      obtain ⟨k, _, _, h, _⟩ := hi.inF n b hb
      rw [hn] at h; simp at h
    · rw [Queue.mem_ids]; rintro ⟨b, hb⟩
      obtain ⟨k, h, _⟩ := hi.inA n b hb
      rw [hn] at h; simp at h
  · intro n k hk
    unfold Spec.entries Spec.scheduleOf
    have hw := hi.con n k hk
    cases hrt : k.rentee with
    | none =>
      obtain ⟨b, hb⟩ := Queue.mem_ids.1 (hi.memA n k hk hrt)
      obtain ⟨k', h1, _, h2⟩ := hi.inA n b hb
      rw [hk] at h1; simp at h1; subst h1
      refine ⟨b, ?_, fun _ => ⟨hw.start.2 hrt, h2⟩, fun h => absurd rfl h⟩
      rw [Queue.filter_one hi.wfA hb, Queue.filter_nil (hi.notF hk (Or.inl hrt)),
        Queue.filter_nil (hi.notS hk (Or.inl hrt))]
      rfl
    | some r =>
      have hne : k.rentee ≠ none := by simp [hrt]
      rw [Queue.filter_nil (hi.notA hk hne)]
      cases hd : k.duration with
      | fixed d =>
        obtain ⟨b, hb⟩ := Queue.mem_ids.1 (hi.memF n k d hk hne hd)
        obtain ⟨k', s, d', h1, _, h2, h3, h4⟩ := hi.inF n b hb
        rw [hk] at h1; simp at h1; subst h1
        rw [hd] at h3; simp at h3; subst h3
        have hp := hw.period
        rw [hd] at hp
        simp only [RentM.period] at hp
        refine ⟨b, ?_, fun h => by simp at h, fun _ => ⟨s, h2, ?_, by omega⟩⟩
        · rw [Queue.filter_one hi.wfF hb, Queue.filter_nil (hi.notS hk (Or.inr ⟨d, hd⟩))]; rfl
        · rintro d' hd'; simp at hd'; subst hd'; exact h4
      | sub u =>
        obtain ⟨b, hb⟩ := Queue.mem_ids.1 (hi.memS n k u hk hne hd)
        obtain ⟨k', s, u', h1, _, h2, h3, h4⟩ := hi.inS n b hb
        rw [hk] at h1; simp at h1; subst h1
        refine ⟨b, ?_, fun h => by simp at h, fun _ => ⟨s, h2, ?_, h4⟩⟩
        · rw [Queue.filter_one hi.wfS hb, Queue.filter_nil (hi.notF hk (Or.inr ⟨u, hd⟩))]; rfl
        · rintro d' hd'; simp at hd'

example : Reach Demo.cfg (Demo.at_ rented) ∧ Spec.entries (Demo.at_ rented) 0 = [(.fixed, 10)] :=
  ⟨Demo.reach _ (by decide), by decide⟩

theorem Bal.transfer_err {ed : Balance} {b : Bal} {s d : AccountId} {v : Balance} {l : Live} {e : Err}
    (h : b.transfer ed s d v l = .error e) :
    e = .e "InsufficientBalance" ∨ e = .e "LiquidityRestrictions/KeepAlive" ∨ e = .e "ExistentialDeposit" := by
  unfold Bal.transfer at h
  split at h
  · simp at h
  · simp only [Exec.bind_err, Exec.require_err, Exec.pure_err] at h
    grind

theorem checkNft_err {m : Option NFTId} {e : Err} (h : RentM.checkNft w a m = .error e) :
    e = .e "NotFound" ∨ e = .e "NotOwned" ∨ e = .e "NotInValidState" := by
  unfold RentM.checkNft at h
  split at h
  · simp [Exec.pure_err] at h
  · simp only [Exec.bind_err, Exec.require_err, Exec.getOr_err] at h
    grind

theorem chownOpt_err {m : Option NFTId} {e : Err} (h : (RentM.chownOpt m a).ext w = .error e) :
    e = .e "NFTNotFound" := by
  unfold RentM.chownOpt at h
  split at h
  · unfold RentM.chownAct Act.ext at h
    split at h
    · simp at h
    · rename_i h1
      dsimp only at h1
      split at h1
      · simp at h1
      · simp_all
  · simp [Act.ext, Act.skip] at h

theorem startContract_room (hi : RentM.QInv c w.now w.rent) {n : NFTId} {k : Contract} {r : AccountId}
    (hk : w.rent.contracts.get n = some k) (hr : k.rentee = none) :
    RentM.startContract c w n k r ≠ .error (.e "MaxSimultaneousContractReached") := by
  intro h
  unfold RentM.startContract at h
  rw [Exec.bind_err] at h
  rcases h with h | ⟨w1, ht, h⟩
  · unfold RentM.takeFees at h
    simp only [Exec.bind_err] at h
    rcases h with h | ⟨_, _, h | ⟨_, _, h | ⟨_, _, h | ⟨_, _, h | ⟨_, _, h⟩⟩⟩⟩⟩
    · simp [Exec.mapErr_err] at h
    · simp [Exec.mapErr_err] at h
    · rcases Exec.mapErr_err.1 h with ⟨s, h, e⟩ | ⟨s, h, e⟩
      · have := checkNft_err h
        simp only [Err.e.injEq] at this e
        rcases this with rfl | rfl | rfl <;> simp [RentM.nftErrs] at e
      · simp at e
    · rcases Exec.mapErr_err.1 h with ⟨s, h, e⟩ | ⟨s, h, e⟩
      · have := checkNft_err h
        simp only [Err.e.injEq] at this e
        rcases this with rfl | rfl | rfl <;> simp [RentM.nftErrs] at e
      · simp at e
    · simpa using chownOpt_err h
    · simpa using chownOpt_err h
  · obtain ⟨b1, b2, _, _, _, _, rfl⟩ := RentM.takeFees_ok ht
    obtain ⟨q, hq⟩ := hi.insert_room hk hr (w.now + RentM.period k.duration)
    simp only [Exec.bind_err, Exec.getOr_err, hq] at h
    simp [Exec.pure_err] at h

/-- Starting a contract never fails for lack of space in the schedules. -/
theorem C30_room (hc : c.Ok) (hr : Reach c w) (n : NFTId) (b : Block) (r : AccountId) :
    dispatch c (.rent (.rent n b)) (.signed a) w ≠ .error (.e "MaxSimultaneousContractReached") ∧
    dispatch c (.rent (.acceptOffer n r)) (.signed a) w ≠
      .error (.e "MaxSimultaneousContractReached") := by
  have hi := (hr.inv hc).rent.q
  constructor
  · intro h
    have h : RentM.rent c w a n b = _ := h
    unfold RentM.rent at h
    simp only [Exec.bind_err, Exec.require_err, Exec.getOr_err, Exec.require_ok, Exec.getOr_ok] at h
    rcases h with h | ⟨k, hk, h | ⟨_, _, h | ⟨_, h1, h | ⟨_, _, h | ⟨_, _, h | ⟨_, _, h⟩⟩⟩⟩⟩⟩
    all_goals first
      | exact startContract_room hi hk h1 h
      | simp at h
  · intro h
    have h : RentM.acceptOffer c w a n r = _ := h
    unfold RentM.acceptOffer at h
    simp only [Exec.bind_err, Exec.require_err, Exec.getOr_err, Exec.require_ok, Exec.getOr_ok] at h
    rcases h with h | ⟨k, hk, h | ⟨l, hl, h | ⟨_, _, h | ⟨_, _, h⟩⟩⟩⟩
    all_goals first
      | (refine startContract_room hi hk ?_ h
         by_contra hne
         rw [hi.offers n k hk hne] at hl; simp at hl)
      | simp at h

/-- ten contracts, the limit, all of them available -/
abbrev fullHouse : List Op :=
  List.replicate 10 Demo.mint1 ++ (List.range 10).map fun n =>
    Demo.by_ 1 (.rent (.create n (.fixed 10) (.auto none) true (.tokens 100) .none .none))

example : Reach Demo.cfg (Demo.at_ fullHouse) ∧
    (Demo.at_ fullHouse).rent.availQ.length = Demo.cfg.rentLimit ∧
    (step Demo.cfg (Demo.at_ fullHouse) (Demo.by_ 2 (.rent (.rent 0 0)))).rent.fixedQ = [(0, 10)] :=
  ⟨Demo.reach _ (by decide), by decide, by decide⟩

/- C31 -/

theorem Spec.refund_eq {k : Contract} (y : AccountId) :
    _root_.gets y k.renter (RentM.feeTokens k.renterFee) +
      _root_.gets y (k.rentee.getD 0) (RentM.renteeTokens k) = Spec.refund k y := by
  unfold Spec.refund
  rw [← Spec.tokensOf_eq]
  congr 1
  cases h : k.rentee with
  | none => simp [RentM.renteeTokens, h, _root_.gets]
  | some r => simp [RentM.renteeTokens, h, ← Spec.tokensOf_eq, _root_.gets, Spec.gets]

theorem Spec.runOut_of {n : NFTId} {k : Contract} (h : RentM.Over c w n k) : Spec.RunOut c w k := by
  unfold Spec.RunOut
  cases h with
  | unused h1 h2 => simp only [h1]; exact h2
  | fixed h1 h2 h3 h4 => simp only [h1, h2, h3]; exact h4
  | sub h1 h2 h3 h4 h5 h6 h7 =>
    simp only [h1, h2, h3]
    rcases h7 with h7 | h7 | ⟨e, h7⟩
    · exact Or.inl h7
    · exact Or.inr (Or.inl h7)
    · exact Or.inr (Or.inr ⟨_, e, h4, h7⟩)

theorem Spec.renewed_moves {ed : Balance} {b b' : Bal} {r o : AccountId} {v : Balance}
    (h : b.transfer ed r o v .keepAlive = .ok b') (y : AccountId) :
    b'.freeOf y + Spec.gets y r v = b.freeOf y + Spec.gets y o v :=
  Spec.transfer_moves (c := { Demo.cfg with ed := ed }) h y

theorem Spec.tick {c : Cfg} {w w' : World} (h : RentM.RInv c w ∧ BalInv c w.bal ∧ RentM.Tick c w w') :
    (∃ n k, Spec.Ended c n k w w') ∨ ∃ n k, Spec.Renewed c n k w w' := by
  obtain ⟨hi, hb, h⟩ := h
  cases h with
  | @finish n k b f hk ho hf =>
    left
    refine ⟨n, k, hk, Spec.runOut_of ho, fun m => FMap.get_erase _ _ _, ?_, ?_, ?_, ?_, ?_⟩
    · rw [Spec.deposited_eq]
      exact Spec.PaysOut.of (hf.out hi hk) Spec.refund_eq
    · obtain ⟨d, hd⟩ := hi.dep.nft n k hk
      exact ⟨d, hd, ((hi.dep.ok n k hk).owner d hd).1, (hf.nfts hi hk).1 d hd⟩
    · intro m hm hne
      rw [Spec.nftOf_eq] at hm
      obtain ⟨d, hd, _⟩ := (hi.dep.ok n k hk).held m (Or.inl ⟨hm, hne⟩)
      exact ⟨d, hd, by rw [(hf.nfts hi hk).2.1 m hne hm, hd]; rfl⟩
    · intro m r hr hm
      rw [Spec.nftOf_eq] at hm
      obtain ⟨d, hd, _⟩ := (hi.dep.ok n k hk).held m (Or.inr (by simp [RentM.renteeNft, hr, hm]))
      exact ⟨d, hd, by rw [(hf.nfts hi hk).2.2.1 m r hr hm, hd]; rfl⟩
    · intro m hne hm
      exact (hf.nfts hi hk).2.2.2 m hne fun h => hm ((Spec.deposit_iff hne).2 h)
  | @renew n b k r s u fee bal hq hn hk h1 h2 h3 h4 h5 h6 h7 =>
    right
    exact ⟨n, k, hk, ⟨r, s, u, fee, h1, h2, h3, h4, h5, h6, Spec.renewed_moves h7⟩, rfl, rfl⟩

/-- A run of the rent hook is a sequence of contract ends, which return all deposits in full, free
the NFT and delete the contract, and of renewals. -/
theorem C31 (hc : c.Ok) (hr : Reach c w) :
    Relation.ReflTransGen (fun w w' => (∃ n k, Spec.Ended c n k w w') ∨ ∃ n k, Spec.Renewed c n k w w')
      w (step c w .hookRent) :=
  Relation.ReflTransGen.mono
    (fun _ _ (h : RentM.RInv c _ ∧ BalInv c _ ∧ RentM.Tick c _ _) => Spec.tick h) _ _
    ((hr.inv hc).rent.ticks hr.micro.balInv)

/-- A contract of which the schedules have lost all entries through the hook has ended: no contract
is left behind by a failed settlement, and its NFT is free and with the renter. -/
theorem C31_released (hc : c.Ok) (hr : Reach c w) {n : NFTId} {k : Contract}
    (hk : w.rent.contracts.get n = some k) (he : Spec.entries (step c w .hookRent) n = []) :
    (step c w .hookRent).rent.contracts.get n = none ∧
    ∃ d, (step c w .hookRent).nfts.get n = some d ∧ d.owner = k.renter ∧ d.st.rented = false := by
  have hn : (step c w .hookRent).rent.contracts.get n = none := by
    cases h : (step c w .hookRent).rent.contracts.get n with
    | none => rfl
    | some k' =>
      obtain ⟨b, hb, _⟩ := (C30 hc (hr.step .hookRent trivial)).2.1 n k' h
      rw [he] at hb; simp at hb
  have hi := (hr.inv hc).rent
  exact ⟨hn, (hi.ticks hr.micro.balInv).released hk hn (hi.dep.renter n k hk)⟩

example : Reach Demo.cfg (Demo.at_ (rented ++ Demo.ticks 10)) ∧
    (∃ k, (Demo.at_ (rented ++ Demo.ticks 10)).rent.contracts.get 0 = some k) ∧
    Spec.entries (Demo.at_ (rented ++ Demo.ticks 10 ++ [.hookRent])) 0 = [] ∧
    (Demo.at_ (rented ++ Demo.ticks 10 ++ [.hookRent])).bal.freeOf 1 = 10095 ∧
    (Demo.at_ (rented ++ Demo.ticks 10 ++ [.hookRent])).bal.freeOf 2 = 9900 :=
  ⟨Demo.reach _ (by decide), ⟨_, rfl⟩, by decide, by decide, by decide⟩

/- C32 -/

/-- Revocation: the contract runs; the caller is its rentee, or its renter if the contract allows it.
The other party gets its own deposit back and the caller's deposit, of which the caller keeps the
completed part if it is flexible; the account of the pallet pays exactly the deposits.  NFT deposits go
to the other party.  The contract is gone, and its NFT free. -/
theorem C32 (hc : c.Ok) (hr : Reach c w) {n : NFTId}
    (h : dispatch c (.rent (.revoke n)) (.signed a) w = .ok w') :
    ∃ k r other mine theirs, w.rent.contracts.get n = some k ∧ k.rentee = some r ∧
      ((a = k.renter ∧ k.renterCanRevoke = true ∧ other = r ∧ mine = k.renterFee ∧
          theirs = k.renteeFee) ∨
        (a = r ∧ a ≠ k.renter ∧ other = k.renter ∧ mine = k.renteeFee ∧ theirs = k.renterFee)) ∧
      Spec.PaysOut c c.rentPot (Spec.tokensOf theirs + Spec.tokensOf mine)
        (fun y => Spec.gets y other (Spec.tokensOf theirs) +
          Spec.gets y other (Spec.tokensOf mine - Spec.kept k w.now mine) +
          Spec.gets y a (Spec.kept k w.now mine)) w.bal w'.bal ∧
      Spec.kept k w.now mine ≤ Spec.tokensOf mine ∧
      w'.rent.contracts = w.rent.contracts.erase n ∧
      (∃ d d', w.nfts.get n = some d ∧ w'.nfts.get n = some d' ∧ d'.st.rented = false ∧
        d'.owner = if Spec.nftOf mine = some n ∨ Spec.nftOf theirs = some n then other else d.owner) ∧
      ∀ m, m ≠ n → w'.nfts.get m =
        if Spec.nftOf theirs = some m ∨ Spec.nftOf mine = some m then
          (w.nfts.get m).map fun d => { d with owner := other } else w.nfts.get m := by
  have hi := (hr.inv hc).rent
  have h : RentM.revoke c w a n = .ok w' := h
  obtain ⟨k, r, hk, hrt, hp, hcan, other, theirs, mine, e1, e2, e3, h1, h2, h3, h4⟩ :=
    RentM.revoke_out h hi
  refine ⟨k, r, other, mine, theirs, hk, hrt, ?_, ?_, ?_, h2, ?_, ?_⟩
  · by_cases e : k.renter = a
    · simp only [e, if_true] at e1 e2 e3
      exact Or.inl ⟨e.symm, hcan e, e1, e3, e2⟩
    · simp only [e, if_false] at e1 e2 e3
      rcases hp with hp | hp
      · exact absurd hp e
      · exact Or.inr ⟨hp.symm, fun h => e h.symm, e1, e3, e2⟩
  · rw [Spec.tokensOf_eq, Spec.tokensOf_eq, Spec.kept_eq]
    refine Spec.PaysOut.of h1 fun y => ?_
    simp only [Spec.gets, _root_.gets]; omega
  · rw [Spec.tokensOf_eq, Spec.kept_eq]; exact RentM.keptPart_le _ _ _
  · obtain ⟨d, hd⟩ := hi.dep.nft n k hk
    obtain ⟨d', g1, g2, g3⟩ := h3 d hd
    refine ⟨d, d', hd, g1, g2, ?_⟩
    rw [g3, Spec.nftOf_eq, Spec.nftOf_eq]
    exact if_congr or_comm rfl rfl
  · intro m hm
    rw [h4 m hm, Spec.nftOf_eq, Spec.nftOf_eq]

example : Reach Demo.cfg (Demo.at_ (rented ++ Demo.ticks 5)) ∧
    (∃ w', dispatch Demo.cfg (.rent (.revoke 0)) (.signed 2) (Demo.at_ (rented ++ Demo.ticks 5)) = .ok w' ∧
      w'.bal.freeOf 1 = 10245 ∧ w'.bal.freeOf 2 = 9750) :=
  ⟨Demo.reach _ (by decide), ⟨_, rfl, by decide, by decide⟩⟩

/-- A running contract can always be revoked by the rentee, and by the renter if allowed, unless the
caller's deposit is flexible. -/
theorem C32_possible (hc : c.Ok) (hr : Reach c w) {n : NFTId} {k : Contract} {r : AccountId}
    (hk : w.rent.contracts.get n = some k) (hrt : k.rentee = some r)
    (ha : (a = k.renter ∧ k.renterCanRevoke = true ∧ ∀ x, k.renterFee ≠ .flexible x) ∨
      (a = r ∧ a ≠ k.renter ∧ ∀ x, k.renteeFee ≠ .flexible x)) :
    ∃ w', dispatch c (.rent (.revoke n)) (.signed a) w = .ok w' := by
  have hi := (hr.inv hc).rent
  refine hi.revoke_succeeds hr.micro.balInv hk hrt ?_ ?_ ?_
  · rcases ha with ⟨h, _⟩ | ⟨h, _⟩ <;> simp [h]
  · rintro rfl
    rcases ha with ⟨_, h, _⟩ | ⟨_, h, _⟩
    · exact h
    · exact absurd rfl h
  · rcases ha with ⟨h, _, h2⟩ | ⟨_, h, h2⟩
    · subst h; simp only [if_true]
      cases hf : k.renterFee <;> simp [RentM.flexible]
      exact h2 _ hf
    · rw [if_neg (Ne.symm h)]
      cases hf : k.renteeFee <;> simp [RentM.flexible]
      exact h2 _ hf

example : Reach Demo.cfg (Demo.at_ rented) ∧ (∃ k, (Demo.at_ rented).rent.contracts.get 0 = some k ∧
    k.rentee = some 2 ∧ k.renter = 1 ∧ k.renterCanRevoke = true ∧ k.renterFee = .fixed 200) :=
  ⟨Demo.reach _ (by decide), ⟨_, rfl, by decide, by decide, by decide, by decide⟩⟩

/-- With a flexible deposit, too, if both parties hold an existential deposit and the pallet's account
holds one on top of all deposits. -/
theorem C32_flexible (hc : c.Ok) (hr : Reach c w) {n : NFTId} {k : Contract} {r : AccountId}
    (hk : w.rent.contracts.get n = some k) (hrt : k.rentee = some r)
    (ha : (a = k.renter ∧ k.renterCanRevoke = true) ∨ (a = r ∧ a ≠ k.renter))
    (h1 : c.ed ≤ w.bal.freeOf k.renter) (h2 : c.ed ≤ w.bal.freeOf r)
    (h3 : Spec.rentDeposits w + c.ed ≤ w.bal.freeOf c.rentPot) :
    ∃ w', dispatch c (.rent (.revoke n)) (.signed a) w = .ok w' := by
  have hi := (hr.inv hc).rent
  have g1 : k.renter = a ∨ r = a := by rcases ha with ⟨h, _⟩ | ⟨h, _⟩ <;> simp [h]
  have g2 : k.renter = a → k.renterCanRevoke = true := by
    rintro rfl
    rcases ha with ⟨_, h⟩ | ⟨_, h⟩
    · exact h
    · exact absurd rfl h
  cases hf : RentM.flexible (if k.renter = a then k.renterFee else k.renteeFee) with
  | none => exact hi.revoke_succeeds hr.micro.balInv hk hrt g1 g2 hf
  | some x =>
    rw [Spec.rentDeposits_eq] at h3
    exact hi.revoke_flexible hr.micro.balInv hk hrt g1 g2 hf h1 h2 h3

example : Reach Demo.cfg (Demo.at_ (rented ++ [.mint 102 50, .tick])) ∧
    Spec.rentDeposits (Demo.at_ (rented ++ [.mint 102 50, .tick])) + 10 ≤
      (Demo.at_ (rented ++ [.mint 102 50, .tick])).bal.freeOf 102 :=
  ⟨Demo.reach _ (by decide), by decide⟩

/-- a rental with a flexible deposit of 15, one and a half times the existential deposit, of which nine
tenths are completed -/
abbrev stuck : List Op :=
  [Demo.mint1, Demo.by_ 1 (.rent (.create 0 (.fixed 10) (.auto none) true (.tokens 100)
    .none (.flexible 15))), Demo.by_ 2 (.rent (.rent 0 0))] ++ Demo.ticks 9

/-- Without that surplus a revocation can be impossible: the revoker's part, 13,
leaves less than the existential deposit in the pallet's account, which is lost, so that the second
payment fails and the call is rolled back. -/
theorem C32_stuck : ∃ c w n k r, c.Ok ∧ Reach c w ∧ w.rent.contracts.get n = some k ∧ k.rentee = some r ∧
    (∃ x, k.renteeFee = .flexible x) ∧ ∀ w', dispatch c (.rent (.revoke n)) (.signed r) w ≠ .ok w' :=
  ⟨Demo.cfg, Demo.at_ stuck, 0, _, 2, Demo.cfg_ok, Demo.reach _ (by decide), rfl, by decide,
    ⟨15, by decide⟩, fun w' h => by
      have : (dispatch Demo.cfg (.rent (.revoke 0)) (.signed 2) (Demo.at_ stuck)).isOk = false := by decide
      rw [h] at this; simp [Except.isOk, Except.toBool] at this⟩

/- C33 -/

/-- NFT 0 is offered as a subscription for 100 per period; the renter then raises the fee to 5000 -/
abbrev bait : List Op :=
  [Demo.mint1, Demo.by_ 1 (.rent (.create 0 (.sub 5 (some 50) true) (.auto none) true (.tokens 100)
    .none .none))]

/-- The call by which a rentee agrees names the contract by its NFT and creation block only.  The very
same call costs 100 in one state and 5000 in the next, after the renter changed the terms: the rentee
can be charged a fee they never agreed to. -/
theorem C33_fails : ∃ c w o w1 w2, c.Ok ∧ Reach c w ∧ o.Ok c ∧
    (∃ n fee per md ch, o = .call (.signed 1) (.rent (.changeTerms n fee per md ch))) ∧
    dispatch c (.rent (.rent 0 0)) (.signed 2) w = .ok w1 ∧
    dispatch c (.rent (.rent 0 0)) (.signed 2) (step c w o) = .ok w2 ∧
    w.bal.freeOf 2 = 10000 ∧ w1.bal.freeOf 2 = 9900 ∧ w2.bal.freeOf 2 = 5000 :=
  ⟨Demo.cfg, Demo.at_ bait, Demo.by_ 1 (.rent (.changeTerms 0 5000 5 none true)), _, _, Demo.cfg_ok,
    Demo.reach _ (by decide), by decide, ⟨_, _, _, _, _, rfl⟩, rfl, rfl, by decide, by decide, by decide⟩

namespace Spec

/-- contract `k` runs, and its terms are not merely proposed -/
def Settled (k : Contract) (r : AccountId) : Prop :=
  k.rentee = some r ∧ ∀ u, k.duration = .sub u → u.newTerms = false

/-- operation `o` in state `w` is `r`'s agreement to the terms of contract `k` on NFT `n`: `r` accepted
exactly these terms, or rented the contract (directly or by an offer the renter accepts) which had them -/
def Agreed (w : World) (n : NFTId) (k : Contract) (r : AccountId) (o : Op) : Prop :=
  (∃ u fee md, k.duration = .sub u ∧ k.rentFee = .tokens fee ∧ (md = none ∨ md = some u.maxDur) ∧
    o = .call (.signed r) (.rent (.acceptTerms n fee u.period md u.changeable))) ∨
  (∃ k0, w.rent.contracts.get n = some k0 ∧ k0.rentee = none ∧ k0.renter = k.renter ∧
    k0.duration = k.duration ∧ k0.rentFee = k.rentFee ∧
    (o = .call (.signed r) (.rent (.rent n k0.creation)) ∨
      (o = .call (.signed k0.renter) (.rent (.acceptOffer n r)) ∧
        ∃ l, w.rent.offers.get n = some l ∧ r ∈ l)))

end Spec

/-- Where settled terms come from, one step. -/
theorem step_agreed (hc : c.Ok) (hr : Reach c w) (o : Op) (ho : o.Ok c) {n : NFTId} {k : Contract}
    {r : AccountId} (hk : (step c w o).rent.contracts.get n = some k) (hs : Spec.Settled k r) :
    w.rent.contracts.get n = some k ∨ Spec.Agreed w n k r o := by
  obtain ⟨hr1, hr2⟩ := hs
  cases hk0 : w.rent.contracts.get n with
  | none =>
    exfalso
    rcases step_rent_case hc hr o ho with ⟨a, x, rfl, _, hd⟩ | ⟨rfl, hd⟩ | e
    · generalize step c w _ = w' at hd hk
      cases hd with
      | create h =>
        obtain ⟨d, b, q, _, hd, _, hv, _, _, _, _, _, _, _, _, _, _, _, _, _, _, rfl⟩ :=
          RentM.create_ok h
        simp only [FMap.get_insert] at hk
        split at hk
        · simp only [Option.some.injEq] at hk; subst hk; simp at hr1
        · rw [hk0] at hk; simp at hk
      | cancel => simp only [FMap.get_erase] at hk; split at hk <;> simp [hk0] at hk
      | revoke h =>
        obtain ⟨k', r, d, b0, b1, b2, hk', hr, hp, hcr, hd, h0, h1, h2, _, rfl⟩ := RentM.revoke_ok h
        simp only [FMap.get_erase] at hk; split at hk <;> simp [hk0] at hk
      | start h1 h2 h3 =>
        obtain ⟨F, S, e⟩ := h3.rent
        rw [e] at hk
        simp only [FMap.get_insert] at hk
        split at hk
        · subst_vars; rw [hk0] at h1; simp at h1
        · rw [hk0] at hk; simp at hk
      | makeOffer => rw [hk0] at hk; simp at hk
      | retractOffer => rw [hk0] at hk; simp at hk
      | changeTerms h1 =>
        simp only [FMap.get_insert] at hk
        split at hk
        · subst_vars; rw [hk0] at h1; simp at h1
        · rw [hk0] at hk; simp at hk
      | acceptTerms h1 =>
        simp only [FMap.get_insert] at hk
        split at hk
        · subst_vars; rw [hk0] at h1; simp at h1
        · rw [hk0] at hk; simp at hk
    · rw [hd.none hk0] at hk; simp at hk
    · rw [e, hk0] at hk; simp at hk
  | some k0 =>
    have ht := step_rent_turn hc hr o ho hk0
    generalize step c w o = w' at ht hk
    cases ht with
    | stay h => rw [hk] at h; left; exact h.symm
    | cancel _ h => rw [hk] at h; simp at h
    | revoke _ _ h => rw [hk] at h; simp at h
    | @start a r' x _ h1 h2 h3 h4 =>
      rw [hk] at h4; simp at h4; subst h4
      simp only [Option.some.injEq] at hr1; subst hr1
      right; right
      refine ⟨k0, hk0, h1, rfl, rfl, rfl, ?_⟩
      rcases h2 with ⟨rfl, rfl, _⟩ | ⟨rfl, rfl, l, hl⟩
      · exact Or.inl rfl
      · exact Or.inr ⟨rfl, l, hl⟩
    | change h1 h2 h3 =>
      rw [hk] at h3; simp at h3; subst h3
      have := hr2 _ rfl
      simp at this
    | accept h1 h2 h3 h4 h5 h6 =>
      rw [hk] at h6; simp at h6; subst h6
      have h1' : k0.rentee = some r := hr1
      rw [h1] at h1'; simp at h1'; subst h1'
      right; left
      exact ⟨_, _, _, rfl, h4, h5, rfl⟩
    | over _ _ _ h => rw [hk] at h; simp at h

/-- In every history: the terms of a running contract, unless they are a proposal of the renter,
were agreed to by the rentee, at some operation in the past since when the contract has been the same.
Together with `C31` (a renewal charges exactly the contract's fee, and only if the terms are no
proposal) and `C33_start` this bounds what a rentee is charged.
Missing: that the rentee knew the terms when renting (`C33_fails`). -/
theorem C33_partial (hc : c.Ok) {w0 : World} (h0 : Genesis c w0) (l : List Op) (hl : ∀ o ∈ l, o.Ok c)
    {n : NFTId} {k : Contract} {r : AccountId} (hk : (run c w0 l).rent.contracts.get n = some k)
    (hs : Spec.Settled k r) :
    ∃ l1 o l2, l = l1 ++ o :: l2 ∧ Spec.Agreed (run c w0 l1) n k r o ∧
      ∀ l3 l4, l2 = l3 ++ l4 → (run c w0 (l1 ++ o :: l3)).rent.contracts.get n = some k := by
  refine run_since' (P := fun w => w.rent.contracts.get n = some k)
    (Q := fun w o => Spec.Agreed w n k r o)
    (fun w o hr ho hp => step_agreed hc hr o ho hp hs) (.init h0) ?_ l hl hk
  rw [h0.rent.1]; simp

/-- account 2 has accepted new terms -/
abbrev accepted : List Op :=
  subscribed ++ [Demo.by_ 1 (.rent (.changeTerms 0 150 6 none true)),
    Demo.by_ 2 (.rent (.acceptTerms 0 150 6 none true))]

example : ∃ k, (run Demo.cfg Demo.w0 accepted).rent.contracts.get 0 = some k ∧ Spec.Settled k 2 ∧
    k.rentFee = .tokens 150 := by
  refine ⟨_, rfl, ⟨by decide, ?_⟩, by decide⟩
  rintro u ⟨⟩; rfl

/-- What the start of a contract costs the rentee: the rent fee and the deposit of the contract as it
is in that state, and nothing else; NFTs asked for are the rentee's. -/
theorem C33_start (hc : c.Ok) (hr : Reach c w) {n : NFTId} {k k' : Contract} {r : AccountId} (o : Op)
    (ho : o.Ok c) (hk : w.rent.contracts.get n = some k) (hn : k.rentee = none)
    (hk' : (step c w o).rent.contracts.get n = some k') (hr' : k'.rentee = some r) :
    (o = .call (.signed r) (.rent (.rent n k.creation)) ∨
      (o = .call (.signed k.renter) (.rent (.acceptOffer n r)) ∧
        ∃ l, w.rent.offers.get n = some l ∧ r ∈ l)) ∧
    k' = { k with rentee := some r, start := some w.now } ∧
    (∀ y, (step c w o).bal.freeOf y +
        (Spec.gets y r (RentM.rentTokens k.rentFee) + Spec.gets y r (Spec.tokensOf k.renteeFee)) =
      w.bal.freeOf y + (Spec.gets y k.renter (RentM.rentTokens k.rentFee) +
        Spec.gets y c.rentPot (Spec.tokensOf k.renteeFee))) ∧
    (∀ m, k.rentFee = .nft m ∨ Spec.nftOf k.renteeFee = some m →
      ∃ d, w.nfts.get m = some d ∧ d.owner = r) := by
  have ht := step_rent_turn hc hr o ho hk
  generalize step c w o = w' at ht hk' ⊢
  cases ht with
  | stay h => rw [hk'] at h; simp at h; subst h; rw [hn] at hr'; simp at hr'
  | cancel _ h => rw [hk'] at h; simp at h
  | revoke _ _ h => rw [hk'] at h; simp at h
  | @start a r1 x _ h1 h2 h3 h4 =>
    rw [hk'] at h4; simp at h4; subst h4
    simp only [Option.some.injEq] at hr'; subst hr'
    obtain ⟨b1, b2, q, t1, t2, c1, c2, _, rfl⟩ := h3.out
    refine ⟨?_, rfl, fun y => ?_, ?_⟩
    · rcases h2 with ⟨rfl, rfl, _⟩ | ⟨rfl, rfl, l, hl⟩
      · exact Or.inl rfl
      · exact Or.inr ⟨rfl, l, hl⟩
    · have m1 := Spec.transfer_moves t1 y
      have m2 := Spec.transfer_moves t2 y
      rw [Spec.tokensOf_eq]
      show b2.freeOf y + _ = _
      omega
    · rintro m (hm | hm)
      · obtain ⟨d, e1, e2, _⟩ := c1 m (by simp [RentM.rentNft, hm])
        exact ⟨d, e1, e2⟩
      · obtain ⟨d, e1, e2, _⟩ := c2 m (by rw [← Spec.nftOf_eq, hm])
        exact ⟨d, e1, e2⟩
  | change _ _ h3 => rw [hk'] at h3; simp at h3; subst h3; simp [hn] at hr'
  | accept h => rw [hn] at h; simp at h
  | over _ _ _ h => rw [hk'] at h; simp at h

example : Reach Demo.cfg (Demo.at_ bait) ∧
    (∃ k, (Demo.at_ bait).rent.contracts.get 0 = some k ∧ k.rentee = none) ∧
    (∃ k, (step Demo.cfg (Demo.at_ bait) (Demo.by_ 2 (.rent (.rent 0 0)))).rent.contracts.get 0 = some k ∧
      k.rentee = some 2) :=
  ⟨Demo.reach _ (by decide), ⟨_, rfl, by decide⟩, ⟨_, rfl, by decide⟩⟩

/- C34 -/

/-- account 2 offers to rent NFT 0, the contract expires unused, and its renter offers the NFT again on
other terms -/
abbrev stale : List Op :=
  [Demo.mint1, Demo.by_ 1 (.rent (.create 0 (.fixed 10) (.manual none) true (.tokens 100) .none .none)),
    Demo.by_ 2 (.rent (.makeOffer 0 0))] ++ Demo.ticks 20 ++ [.hookRent,
    Demo.by_ 1 (.rent (.create 0 (.fixed 10) (.manual none) true (.tokens 5000) .none .none))]

/-- Offers survive the expiry of a contract.  Account 2 made its only offer for a fee of 100, and the
renter accepts it for a new contract with a fee of 5000. -/
theorem C34_fails : ∃ c w0 l w', c.Ok ∧ Genesis c w0 ∧ (∀ o ∈ l, o.Ok c) ∧
    dispatch c (.rent (.acceptOffer 0 2)) (.signed 1) (run c w0 l) = .ok w' ∧
    (∃ k, (run c w0 l).rent.contracts.get 0 = some k ∧ k.rentFee = .tokens 5000 ∧ k.creation = 20) ∧
    (∀ o ∈ l, ∀ n b, o = .call (.signed 2) (.rent (.makeOffer n b)) → n = 0 ∧ b = 0) ∧
    (run c w0 l).bal.freeOf 2 = 10000 ∧ w'.bal.freeOf 2 = 5000 := by
  refine ⟨Demo.cfg, Demo.w0, stale, _, Demo.cfg_ok, Demo.genesis, by decide, rfl,
    ⟨_, rfl, by decide, by decide⟩, ?_, by decide, by decide⟩
  intro o ho n b e
  subst e
  simp at ho
  exact ho

/-- offers on NFT `n` have no duplicates -/
theorem Reach.offers_nodup (hc : c.Ok) (hr : Reach c w) :
    ∀ n l, w.rent.offers.get n = some l → l.Nodup := by
  induction hr with
  | init h => intro n l hl; rw [h.rent.2.2.2.2] at hl; simp at hl
  | @step w o hr ho ih =>
    intro n l hl
    rcases step_rent_case hc hr o ho with ⟨a, x, rfl, _, hd⟩ | ⟨rfl, hd⟩ | e
    · generalize _root_.step c w _ = w' at hd hl
      cases hd with
      | create h =>
        obtain ⟨d, b, q, _, hd, _, hv, _, _, _, _, _, _, _, _, _, _, _, _, _, _, rfl⟩ :=
          RentM.create_ok h
        exact ih n l hl
      | cancel => 
        simp only [FMap.get_erase] at hl
        split at hl
        · simp at hl
        · exact ih n l hl
      | revoke h =>
        obtain ⟨k', r, d, b0, b1, b2, hk', hr, hp, hcr, hd, h0, h1, h2, _, rfl⟩ := RentM.revoke_ok h
        refine ih n l ?_
        revert hl
        simp only [RentM.removeKind]
        split <;> exact id
      | start h1 h2 h3 =>
        obtain ⟨F, S, e⟩ := h3.rent
        rw [e] at hl
        simp only [FMap.get_erase] at hl
        split at hl
        · simp at hl
        · exact ih n l hl
      | @makeOffer m k h1 =>
        simp only [FMap.get_insert] at hl
        split at hl
        · simp only [Option.some.injEq] at hl; subst hl
          rw [List.nodup_append]
          refine ⟨?_, by simp, ?_⟩
          · cases h : w.rent.offers.get m with
            | none => simp
            | some l => exact ih m l h
          · rintro x hx y hy rfl
            simp at hy; subst hy; exact h1 hx
        · exact ih n l hl
      | retractOffer h1 =>
        simp only [FMap.get_insert] at hl
        split at hl
        · simp only [Option.some.injEq] at hl; subst hl
          exact (ih _ _ h1).erase _
        · exact ih n l hl
      | changeTerms h1 =>
        dsimp only at hl
        split at hl
        · exact ih n l hl
        · simp only [FMap.get_erase] at hl
          split at hl
          · simp at hl
          · exact ih n l hl
      | acceptTerms h1 => exact ih n l hl
    · rw [hd.offers] at hl; exact ih n l hl
    · rw [e] at hl; exact ih n l hl

namespace Spec

/-- account `r` has a standing offer for NFT `n` -/
def Offers (w : World) (n : NFTId) (r : AccountId) : Prop := ∃ l, w.rent.offers.get n = some l ∧ r ∈ l

/-- contract `k` on NFT `n` is there, or has been ended by the hook at some point of the history `l`,
and was there until then -/
def StillOrExpired (c : Cfg) (n : NFTId) (k : Contract) (w : World) (l : List Op) : Prop :=
  (run c w l).rent.contracts.get n = some k ∨
  ∃ l1 l2, l = l1 ++ .hookRent :: l2 ∧ (run c w l1).rent.contracts.get n = some k ∧
    (run c w (l1 ++ [.hookRent])).rent.contracts.get n = none

end Spec

/-- Where a standing offer comes from, one step. -/
theorem step_offer (hc : c.Ok) (hr : Reach c w) (o : Op) (ho : o.Ok c) {n : NFTId} {r : AccountId}
    (h : Spec.Offers (step c w o) n r) :
    (Spec.Offers w n r ∧ o ≠ .call (.signed r) (.rent (.retractOffer n)) ∧
      ((step c w o).rent.contracts.get n = w.rent.contracts.get n ∨ o = .hookRent ∨
        w.rent.contracts.get n = none)) ∨
    (∃ k, w.rent.contracts.get n = some k ∧ k.rentee = none ∧ k.renter ≠ r ∧
      (step c w o).rent.contracts.get n = some k ∧
      (∀ l, k.acceptance = .manual (some l) → r ∈ l) ∧ (∀ l, k.acceptance ≠ .auto l) ∧
      o = .call (.signed r) (.rent (.makeOffer n k.creation))) := by
  have hi := (hr.inv hc).rent
  obtain ⟨l, hl, hrl⟩ := h
  rcases step_rent_case hc hr o ho with ⟨a, x, rfl, _, hd⟩ | ⟨rfl, hd⟩ | e
  · generalize step c w _ = w' at hd hl ⊢
    cases hd with
    | @create m _ _ _ _ _ _ _ h =>
      obtain ⟨d, b, q, _, hd, _, hv, _, _, _, _, _, _, _, _, _, _, _, _, _, _, rfl⟩ := RentM.create_ok h
      refine Or.inl ⟨⟨l, hl, hrl⟩, by simp, ?_⟩
      by_cases e : n = m
      · subst e
        right; right
        cases hk : w.rent.contracts.get n with
        | none => rfl
        | some k =>
          have := ((hi.dep.ok n k hk).owner d hd).2
          simp [RentM.valid, this] at hv
      · left; simp only [FMap.get_insert, e, if_false]
    | @cancel m k b f hk =>
      simp only [FMap.get_erase] at hl ⊢
      split at hl
      · simp at hl
      · rename_i e
        exact Or.inl ⟨⟨l, hl, hrl⟩, by simp, Or.inl (by simp [e])⟩
    | @revoke m _ h =>
      obtain ⟨k', r', d, b0, b1, b2, hk', hr', hp, hcr, hd, h0, h1, h2, _, rfl⟩ := RentM.revoke_ok h
      have hl' : w.rent.offers.get n = some l := by
        revert hl
        simp only [RentM.removeKind]
        split <;> exact id
      refine Or.inl ⟨⟨l, hl', hrl⟩, by simp, Or.inl ?_⟩
      have e : n ≠ m := by
        rintro rfl
        rw [hi.q.offers n k' hk' (by simp [hr'])] at hl'; simp at hl'
      simp only [FMap.get_erase, e, if_false]
    | @start m k r' _ _ h1 h2 h3 =>
      obtain ⟨F, S, e⟩ := h3.rent
      rw [e] at hl ⊢
      simp only [FMap.get_erase] at hl
      split at hl
      · simp at hl
      · rename_i e
        refine Or.inl ⟨⟨l, hl, hrl⟩, ?_, Or.inl (by simp only [FMap.get_insert, e, if_false])⟩
        rintro ⟨⟩
        rcases h2 with ⟨h, _⟩ | ⟨h, _⟩ <;> simp at h
    | @makeOffer m k h1 h2 h3 h4 h5 h6 =>
      simp only [FMap.get_insert] at hl
      split at hl
      · rename_i e; subst e
        simp only [Option.some.injEq] at hl; subst hl
        rw [List.mem_append] at hrl
        rcases hrl with hrl | hrl
        · left
          refine ⟨?_, by simp, Or.inl rfl⟩
          cases h : w.rent.offers.get n with
          | none => rw [h] at hrl; simp at hrl
          | some l => rw [h] at hrl; exact ⟨l, h, hrl⟩
        · simp at hrl; subst hrl
          right
          refine ⟨k, h2, (hi.q.con n k h2).start.1 h3, h4, h2, ?_, ?_, rfl⟩
          · intro l hl; exact h6 l (by simp [hl, RentM.allowList])
          · intro l hl; simp [hl, RentM.isManual] at h5
      · exact Or.inl ⟨⟨l, hl, hrl⟩, by simp, Or.inl rfl⟩
    | @retractOffer m l' h1 h2 =>
      left
      simp only [FMap.get_insert] at hl
      split at hl
      · rename_i e; subst e
        simp only [Option.some.injEq] at hl; subst hl
        refine ⟨⟨l', h1, List.mem_of_mem_erase hrl⟩, ?_, Or.inl rfl⟩
        rintro ⟨⟩
        exact (hr.offers_nodup hc n l' h1).not_mem_erase hrl
      · rename_i e
        refine ⟨⟨l, hl, hrl⟩, ?_, Or.inl rfl⟩
        rintro ⟨⟩; exact e rfl
    | @changeTerms m k s fee per md ch h1 =>
      left
      dsimp only at hl
      have hl' : w.rent.offers.get n = some l ∧ n ≠ m := by
        split at hl
        · rename_i hs
          refine ⟨hl, ?_⟩
          rintro rfl
          rw [hi.q.offers n k h1 (by intro e; simp [e] at hs)] at hl; simp at hl
        · simp only [FMap.get_erase] at hl
          split at hl
          · simp at hl
          · rename_i e; exact ⟨hl, e⟩
      exact ⟨⟨l, hl'.1, hrl⟩, by simp, Or.inl (by simp only [FMap.get_insert, hl'.2, if_false])⟩
    | @acceptTerms m k s fee per md ch h1 h2 =>
      have e : n ≠ m := by
        rintro rfl
        have := hi.q.offers n k h1 (by simp [h2])
        rw [this] at hl; simp at hl
      exact Or.inl ⟨⟨l, hl, hrl⟩, by simp, Or.inl (by simp only [FMap.get_insert, e, if_false])⟩
  · rw [hd.offers] at hl
    exact Or.inl ⟨⟨l, hl, hrl⟩, by simp, Or.inr (Or.inl rfl)⟩
  · rw [e] at hl ⊢
    refine Or.inl ⟨⟨l, hl, hrl⟩, ?_, Or.inl rfl⟩
    rintro rfl
    cases hdis : dispatch c (.rent (.retractOffer n)) (.signed r) w with
    | error x =>
      have h : RentM.retractOffer w r n = .error x := hdis
      unfold RentM.retractOffer at h
      simp only [Exec.bind_err, Exec.getOr_err, hl, Exec.require_err, hrl] at h
      simp [getOr, require, bind, Except.bind, hl, hrl, Exec.pure_err] at h
    | ok w1 =>
      have hst : step c w (.call (.signed r) (.rent (.retractOffer n))) = w1 := by
        simp [step, hdis, orSame]
      rw [hst] at e
      have hd := rent_did hdis
      cases hd with
      | @start m k r' _ _ h1 h2 h3 => rcases h2 with ⟨h, _⟩ | ⟨h, _⟩ <;> simp at h
      | @retractOffer _ l' h1 h2 =>
        have := congrArg (fun s => s.offers.get n) e
        simp only [FMap.get_insert_self, hl] at this
        rw [hl] at h1; simp at h1; subst h1
        simp only [Option.some.injEq] at this
        have h3 := (hr.offers_nodup hc n l hl).not_mem_erase (a := r)
        rw [this] at h3; exact h3 hrl

theorem run_offers (hc : c.Ok) (hr : Reach c w) {n : NFTId} {r : AccountId} (l : List Op)
    (hl : ∀ o ∈ l, o.Ok c) (h : ∀ l3 l4, l = l3 ++ l4 → Spec.Offers (run c w l3) n r) :
    (.call (.signed r) (.rent (.retractOffer n))) ∉ l ∧
    ∀ k, w.rent.contracts.get n = some k → Spec.StillOrExpired c n k w l := by
  induction l generalizing w with
  | nil => exact ⟨by simp, fun k hk => Or.inl hk⟩
  | cons o t ih =>
    have ho := hl o (by simp)
    obtain ⟨h1, h2⟩ := ih (hr.step o ho) (fun x hx => hl x (by simp [hx]))
      (fun l3 l4 e => h (o :: l3) l4 (by rw [e]; rfl))
    have hs := step_offer hc hr o ho (h [o] t rfl)
    have key : o ≠ .call (.signed r) (.rent (.retractOffer n)) ∧ ∀ k, w.rent.contracts.get n = some k →
        (step c w o).rent.contracts.get n = some k ∨
        o = .hookRent ∧ (step c w o).rent.contracts.get n = none := by
      rcases hs with ⟨_, h3, h4⟩ | ⟨k, h3, _, _, h4, _, _, rfl⟩
      · refine ⟨h3, fun k hk => ?_⟩
        rcases h4 with h4 | rfl | h4
        · left; rw [h4]; exact hk
        · have ht := step_rent_turn hc hr .hookRent ho hk
          generalize step c w _ = w' at ht ⊢
          cases ht with
          | stay h => exact Or.inl h
          | over _ _ _ h => exact Or.inr ⟨rfl, h⟩
        · rw [hk] at h4; simp at h4
      · refine ⟨by simp, fun k' hk' => ?_⟩
        rw [h3] at hk'; simp at hk'; subst hk'
        exact Or.inl h4
    refine ⟨?_, fun k hk => ?_⟩
    · rw [List.mem_cons]
      rintro (e | e)
      · exact key.1 e.symm
      · exact h1 e
    · rcases key.2 k hk with h3 | ⟨rfl, h3⟩
      · rcases h2 k h3 with h4 | ⟨l1, l2, rfl, h4, h5⟩
        · exact Or.inl h4
        · exact Or.inr ⟨o :: l1, l2, rfl, h4, h5⟩
      · exact Or.inr ⟨[], t, rfl, hk, h3⟩

/-- In every history: if the renter's acceptance of account `r` as rentee succeeds, `r` made an offer
in the past and has not retracted it since.  It was for the contract that was there at that moment;
this contract is unchanged now, unless it has been ended by the hook in between.
Missing: the last case (`C34_fails`). -/
theorem C34_partial (hc : c.Ok) {w0 : World} (h0 : Genesis c w0) (l : List Op) (hl : ∀ o ∈ l, o.Ok c)
    {n : NFTId} {r : AccountId}
    (h : dispatch c (.rent (.acceptOffer n r)) (.signed a) (run c w0 l) = .ok w') :
    ∃ k l1 l2, l = l1 ++ .call (.signed r) (.rent (.makeOffer n k.creation)) :: l2 ∧
      (run c w0 l1).rent.contracts.get n = some k ∧ k.rentee = none ∧ k.renter ≠ r ∧
      (∀ l, k.acceptance = .manual (some l) → r ∈ l) ∧ (∀ l, k.acceptance ≠ .auto l) ∧
      .call (.signed r) (.rent (.retractOffer n)) ∉ l2 ∧
      Spec.StillOrExpired c n k (run c w0 l1)
        (.call (.signed r) (.rent (.makeOffer n k.creation)) :: l2) := by
  have hoff : Spec.Offers (run c w0 l) n r := by
    have hd := rent_did h
    cases hd with
    | @start m k r' _ _ h1 h2 h3 =>
      rcases h2 with ⟨h, _⟩ | ⟨h, _, l, h2⟩
      · simp at h
      · simp only [RentM.Call.acceptOffer.injEq] at h
        obtain ⟨rfl, rfl⟩ := h
        exact ⟨l, h2⟩
  obtain ⟨l1, o, l2, rfl, hQ, hP⟩ := run_since' (P := fun w => Spec.Offers w n r)
    (Q := fun w o => ∃ k, w.rent.contracts.get n = some k ∧ k.rentee = none ∧ k.renter ≠ r ∧
      (step c w o).rent.contracts.get n = some k ∧
      (∀ l, k.acceptance = .manual (some l) → r ∈ l) ∧ (∀ l, k.acceptance ≠ .auto l) ∧
      o = .call (.signed r) (.rent (.makeOffer n k.creation)))
    (fun w o hr ho hp => (step_offer hc hr o ho hp).imp (fun h => h.1) id) (.init h0)
    (by rintro ⟨l, h1, _⟩; rw [h0.rent.2.2.2.2] at h1; simp at h1) l hl hoff
  obtain ⟨k, q1, q2, q3, q4, q5, q6, rfl⟩ := hQ
  have hr1 : Reach c (run c w0 l1) := (Reach.init h0).run l1 fun x hx => hl x (by simp [hx])
  have hr2 := hr1.step _ (hl (.call (.signed r) (.rent (.makeOffer n k.creation))) (by simp))
  obtain ⟨g1, g2⟩ := run_offers hc hr2 (n := n) (r := r) l2 (fun x hx => hl x (by simp [hx])) (by
    intro l3 l4 e
    have := hP l3 l4 e
    rwa [run_append] at this)
  refine ⟨k, l1, l2, rfl, q1, q2, q3, q5, q6, g1, ?_⟩
  rcases g2 k q4 with h4 | ⟨l3, l4, rfl, h4, h5⟩
  · exact Or.inl h4
  · exact Or.inr ⟨_ :: l3, l4, rfl, h4, h5⟩

/-- an offer that is still for the same contract -/
abbrev offered2 : List Op :=
  [Demo.mint1, Demo.by_ 1 (.rent (.create 0 (.fixed 10) (.manual none) true (.tokens 100) .none .none)),
    Demo.by_ 2 (.rent (.makeOffer 0 0)), .tick]

example : ∃ w', dispatch Demo.cfg (.rent (.acceptOffer 0 2)) (.signed 1)
    (run Demo.cfg Demo.w0 offered2) = .ok w' ∧ w'.bal.freeOf 2 = 9900 :=
  ⟨_, rfl, by decide⟩

/- C35 -/

/-- While a contract runs, no operation changes its renter, rentee or start, and its NFT is owned by the
renter and marked as rented. -/
theorem C35 (hc : c.Ok) (hr : Reach c w) {n : NFTId} {k : Contract}
    (hk : w.rent.contracts.get n = some k) (hn : k.rentee ≠ none) (o : Op) (ho : o.Ok c) :
    (∃ d, w.nfts.get n = some d ∧ d.owner = k.renter ∧ d.st.rented = true) ∧
    ((step c w o).rent.contracts.get n = none ∨
      ∃ k', (step c w o).rent.contracts.get n = some k' ∧ k'.renter = k.renter ∧
        k'.rentee = k.rentee ∧ k'.start = k.start ∧ k'.renterFee = k.renterFee ∧
        k'.renteeFee = k.renteeFee ∧ k'.renterCanRevoke = k.renterCanRevoke) := by
  have hi := (hr.inv hc).rent
  constructor
  · obtain ⟨d, hd⟩ := hi.dep.nft n k hk
    exact ⟨d, hd, (hi.dep.ok n k hk).owner d hd⟩
  · have ht := step_rent_turn hc hr o ho hk
    generalize step c w o = w' at ht ⊢
    cases ht with
    | stay h => exact Or.inr ⟨k, h, rfl, rfl, rfl, rfl, rfl, rfl⟩
    | cancel _ h => exact Or.inl h
    | revoke _ _ h => exact Or.inl h
    | start h => exact absurd h hn
    | change _ _ h => exact Or.inr ⟨_, h, rfl, rfl, rfl, rfl, rfl, rfl⟩
    | accept _ _ _ _ _ h => exact Or.inr ⟨_, h, rfl, rfl, rfl, rfl, rfl, rfl⟩
    | over _ _ _ h => exact Or.inl h

example : Reach Demo.cfg (Demo.at_ rented) ∧
    ∃ k, (Demo.at_ rented).rent.contracts.get 0 = some k ∧ k.rentee ≠ none :=
  ⟨Demo.reach _ (by decide), _, rfl, by decide⟩

/- C36 -/

/-- A running contract with fixed duration is unchanged by every operation, except that its rentee, or
its renter if allowed, may revoke it, and that the hook may end it once its duration has passed. -/
theorem C36 (hc : c.Ok) (hr : Reach c w) {n : NFTId} {k : Contract} {r : AccountId} {s d : Block}
    (hk : w.rent.contracts.get n = some k) (hn : k.rentee = some r) (hs : k.start = some s)
    (hd : k.duration = .fixed d) (o : Op) (ho : o.Ok c) :
    (step c w o).rent.contracts.get n = some k ∨
    ((step c w o).rent.contracts.get n = none ∧ (o = .hookRent ∧ s + d ≤ w.now ∨
      ∃ a, o = .call (.signed a) (.rent (.revoke n)) ∧ (a = r ∨ a = k.renter ∧ k.renterCanRevoke = true))) := by
  have ht := step_rent_turn hc hr o ho hk
  generalize step c w o = w' at ht ⊢
  cases ht with
  | stay h => exact Or.inl h
  | cancel h => rw [hn] at h; simp at h
  | revoke h1 h2 h3 =>
    rw [hn] at h1; simp at h1; subst h1
    exact Or.inr ⟨h3, Or.inr ⟨_, rfl, h2⟩⟩
  | start h => rw [hn] at h; simp at h
  | change h => rw [hd] at h; simp at h
  | accept _ h => rw [hd] at h; simp at h
  | over h1 _ h2 h3 =>
    refine Or.inr ⟨h3, Or.inl ⟨rfl, ?_⟩⟩
    rw [← h1.now]
    have := Spec.runOut_of h2
    simpa [Spec.RunOut, hn, hs, hd] using this

example : Reach Demo.cfg (Demo.at_ rented) ∧ ∃ k, (Demo.at_ rented).rent.contracts.get 0 = some k ∧
    k.rentee = some 2 ∧ k.start = some 0 ∧ k.duration = .fixed 10 :=
  ⟨Demo.reach _ (by decide), _, rfl, by decide, by decide, by decide⟩

/-- runs of the rent hook -/
def Spec.rentRuns (l : List Op) : Nat := l.countP fun o => match o with
  | .hookRent => true
  | _ => false

theorem Spec.rentRuns_cons (o : Op) (l : List Op) :
    Spec.rentRuns (o :: l) = Spec.rentRuns [o] + Spec.rentRuns l := by
  simp only [Spec.rentRuns, List.countP_cons, List.countP_nil]; omega

/-- A contract at position `i` of the schedule of fixed rentals whose time has passed is ended during
the first `i / max 1 ActionsInBlockLimit + 1` runs of the hook, unless it is revoked before, whatever
else happens. -/
theorem C36_ends (hc : c.Ok) (hr : Reach c w) {n : NFTId} {b : Block} {i : Nat}
    (hi : w.rent.fixedQ[i]? = some (n, b)) (hb : b ≤ w.now) (l : List Op) (hl : ∀ o ∈ l, o.Ok c)
    (hno : ∀ o ∈ l, ∀ a, o ≠ .call (.signed a) (.rent (.revoke n)))
    (hk : i / max 1 c.rentActions < Spec.rentRuns l) :
    ∃ l1 l2, l = l1 ++ .hookRent :: l2 ∧ Spec.rentRuns l1 ≤ i / max 1 c.rentActions ∧
      (run c w l1).rent.contracts.get n = w.rent.contracts.get n ∧
      (run c w (l1 ++ [.hookRent])).rent.contracts.get n = none := by
  replace hi : Queue.At w.rent.fixedQ n b i := Queue.At.iff.2 hi
  induction l generalizing w i with
  | nil => simp [Spec.rentRuns] at hk
  | cons o t ih =>
    have hv := (hr.inv hc).rent
    have ho := hl o (by simp)
    obtain ⟨k, s, d, hcon, hrt, hs, hd, hbs⟩ := hv.q.inF n b hi.mem
    obtain ⟨r, hrt⟩ := Option.ne_none_iff_exists'.1 hrt
    have hcase := C36 hc hr hcon hrt hs hd o ho
    have hcount := Spec.rentRuns_cons o t
    have hK : 0 < max 1 c.rentActions := by omega
    have cont : ∀ j, (o = .hookRent → max 1 c.rentActions ≤ i ∧ j ≤ i - max 1 c.rentActions) →
        (o ≠ .hookRent → j ≤ i) → Queue.At (step c w o).rent.fixedQ n b j →
        ∃ l1 l2, o :: t = l1 ++ .hookRent :: l2 ∧ Spec.rentRuns l1 ≤ i / max 1 c.rentActions ∧
          (run c w l1).rent.contracts.get n = w.rent.contracts.get n ∧
          (run c w (l1 ++ [.hookRent])).rent.contracts.get n = none := by
      intro j hj1 hj2 hat
      have hj : j / max 1 c.rentActions + Spec.rentRuns [o] ≤ i / max 1 c.rentActions := by
        by_cases e : o = .hookRent
        · subst e
          obtain ⟨h1, h2⟩ := hj1 rfl
          have h3 := Nat.div_le_div_right (c := max 1 c.rentActions) h2
          have := Nat.sub_add_cancel h1
          have h4 : i / max 1 c.rentActions = (i - max 1 c.rentActions) / max 1 c.rentActions + 1 := by
            conv_lhs => rw [← this]
            rw [Nat.add_div_right _ hK]
          have h5 : Spec.rentRuns [Op.hookRent] = 1 := rfl
          omega
        · have h1 := Nat.div_le_div_right (c := max 1 c.rentActions) (hj2 e)
          have : Spec.rentRuns [o] = 0 := by
            cases o <;> first | rfl | exact absurd rfl e
          omega
      obtain ⟨l1, l2, rfl, f0, f1, f2⟩ := ih (hr.step o ho) (Nat.le_trans hb (step_now_le w o))
        (fun y hy => hl y (by simp [hy])) (fun y hy => hno y (by simp [hy])) (i := j) (by omega) hat
      refine ⟨o :: l1, l2, rfl, ?_, ?_, f2⟩
      · have := Spec.rentRuns_cons o l1
        omega
      · show (run c (step c w o) l1).rent.contracts.get n = _
        rw [f1]
        have hv' := (((hr.step o ho).inv hc).rent.q.inF n b hat.mem)
        obtain ⟨k', _, _, hk', _⟩ := hv'
        rcases hcase with h | ⟨h, _⟩
        · rw [h, hcon]
        · rw [hk'] at h; simp at h
    by_cases hh : o = .hookRent
    · subst hh
      rcases RentM.hook_fixed_at (c := c) hv.q.wfF hi hb with hout | ⟨hge, j, hj, hA⟩
      · refine ⟨[], t, rfl, Nat.zero_le _, rfl, ?_⟩
        show (step c w .hookRent).rent.contracts.get n = none
        rcases hcase with h | ⟨h, _⟩
        · exact absurd (((hr.step .hookRent ho).inv hc).rent.q.memF n k d h (by simp [hrt]) hd) hout
        · exact h
      · exact cont j (fun _ => ⟨hge, hj⟩) (fun h => absurd rfl h) hA
    · obtain ⟨j, hj, hA⟩ := step_fixed_at hc hr o ho hi hb hh (hno o (by simp))
      exact cont j (fun h => absurd h hh) (fun _ => hj) hA

example : Reach Demo.cfg (Demo.at_ (rented ++ Demo.ticks 10)) ∧
    (Demo.at_ (rented ++ Demo.ticks 10)).rent.fixedQ[0]? = some (0, 10) ∧
    (Demo.at_ (rented ++ Demo.ticks 10)).now = 10 ∧ Spec.rentRuns [.hookAuc, .hookRent] = 1 :=
  ⟨Demo.reach _ (by decide), by decide, by decide, rfl⟩

/- C64 -/

theorem Spec.rentRuns_zero {o : Op} (h : o ≠ .hookRent) : Spec.rentRuns [o] = 0 := by
  cases o <;> first | rfl | exact absurd rfl h

/-- A contract at position `i` of the schedule of available contracts that nobody has rented in time is
ended during the first `i + 1` runs of the hook, unless it is cancelled or rented before. -/
theorem C64_unused (hc : c.Ok) (hr : Reach c w) {n : NFTId} {b : Block} {i : Nat}
    (hi : w.rent.availQ[i]? = some (n, b)) (hb : b ≤ w.now) (l : List Op) (hl : ∀ o ∈ l, o.Ok c)
    (hno : ∀ o ∈ l, ∀ a, o ≠ .call (.signed a) (.rent (.cancel n)) ∧
      (∀ b, o ≠ .call (.signed a) (.rent (.rent n b))) ∧
      ∀ r, o ≠ .call (.signed a) (.rent (.acceptOffer n r)))
    (hk : i < Spec.rentRuns l) :
    ∃ l1 l2, l = l1 ++ .hookRent :: l2 ∧ Spec.rentRuns l1 ≤ i ∧
      (∃ k, (run c w l1).rent.contracts.get n = some k ∧ k.rentee = none) ∧
      (run c w (l1 ++ [.hookRent])).rent.contracts.get n = none := by
  replace hi : Queue.At w.rent.availQ n b i := Queue.At.iff.2 hi
  induction l generalizing w i with
  | nil => simp [Spec.rentRuns] at hk
  | cons o t ih =>
    have hv := (hr.inv hc).rent
    have ho := hl o (by simp)
    obtain ⟨k, hcon, hrt, _⟩ := hv.q.inA n b hi.mem
    have hcount := Spec.rentRuns_cons o t
    have cont : ∀ j, (o = .hookRent → 1 ≤ i ∧ j ≤ i - 1) →
        (o ≠ .hookRent → j ≤ i) → Queue.At (step c w o).rent.availQ n b j →
        ∃ l1 l2, o :: t = l1 ++ .hookRent :: l2 ∧ Spec.rentRuns l1 ≤ i ∧
          (∃ k, (run c w l1).rent.contracts.get n = some k ∧ k.rentee = none) ∧
          (run c w (l1 ++ [.hookRent])).rent.contracts.get n = none := by
      intro j hj1 hj2 hat
      have hj : j + Spec.rentRuns [o] ≤ i := by
        by_cases e : o = .hookRent
        · subst e
          have h5 : Spec.rentRuns [Op.hookRent] = 1 := rfl
          have := hj1 rfl
          omega
        · have := hj2 e
          rw [Spec.rentRuns_zero e]; omega
      obtain ⟨l1, l2, rfl, f0, f1, f2⟩ := ih (hr.step o ho) (Nat.le_trans hb (step_now_le w o))
        (fun y hy => hl y (by simp [hy])) (fun y hy => hno y (by simp [hy])) (i := j) (by omega) hat
      have := Spec.rentRuns_cons o l1
      exact ⟨o :: l1, l2, rfl, by omega, f1, f2⟩
    by_cases hh : o = .hookRent
    · subst hh
      rcases RentM.hook_avail_at (c := c) hv.q.wfA hi hb with hout | ⟨hge, j, hj, hA⟩
      · refine ⟨[], t, rfl, Nat.zero_le _, ⟨k, hcon, hrt⟩, ?_⟩
        show (step c w .hookRent).rent.contracts.get n = none
        have ht := step_rent_turn hc hr .hookRent ho hcon
        have hq := ((hr.step .hookRent ho).inv hc).rent.q.memA n k
        change n ∉ Queue.ids (step c w .hookRent).rent.availQ at hout
        generalize step c w .hookRent = w' at ht hq hout ⊢
        cases ht with
        | stay h => exact absurd (hq h hrt) hout
        | over _ _ _ h => exact h
      · exact cont j (fun _ => ⟨hge, hj⟩) (fun h => absurd rfl h) hA
    · have hno' := hno o (by simp)
      obtain ⟨j, hj, hA⟩ := step_avail_at hc hr o ho hi hb hh (fun a => (hno' a).1)
        (fun a => (hno' a).2.1) (fun a => (hno' a).2.2)
      exact cont j (fun h => absurd h hh) (fun _ => hj) hA

example : Reach Demo.cfg (Demo.at_ (bait ++ Demo.ticks 20)) ∧
    (Demo.at_ (bait ++ Demo.ticks 20)).rent.availQ[0]? = some (0, 20) ∧
    (Demo.at_ (bait ++ Demo.ticks 20)).now = 20 ∧ Spec.rentRuns [.hookRent] = 1 :=
  ⟨Demo.reach _ (by decide), by decide, by decide, rfl⟩

/-- A subscription at position `i` of its schedule whose period is over is ended or renewed, so that
its next period ends later than now, during the first `i + 1` runs of the hook, unless it is revoked
before. -/
theorem C64_subscription (hc : c.Ok) (hr : Reach c w) {n : NFTId} {b : Block} {i : Nat}
    (hi : w.rent.subQ[i]? = some (n, b)) (hb : b ≤ w.now) (l : List Op) (hl : ∀ o ∈ l, o.Ok c)
    (hno : ∀ o ∈ l, ∀ a, o ≠ .call (.signed a) (.rent (.revoke n)))
    (hk : i < Spec.rentRuns l) :
    ∃ l1 l2, l = l1 ++ .hookRent :: l2 ∧ Spec.rentRuns l1 ≤ i ∧
      (∃ k, (run c w l1).rent.contracts.get n = some k ∧ k.rentee ≠ none) ∧
      ((run c w (l1 ++ [.hookRent])).rent.contracts.get n = none ∨
        ∃ e, Spec.entries (run c w (l1 ++ [.hookRent])) n = [(.subscription, e)] ∧
          (run c w l1).now < e) := by
  replace hi : Queue.At w.rent.subQ n b i := Queue.At.iff.2 hi
  induction l generalizing w i with
  | nil => simp [Spec.rentRuns] at hk
  | cons o t ih =>
    have hv := (hr.inv hc).rent
    have ho := hl o (by simp)
    obtain ⟨k, s, u, hcon, hrt, hs, hd, hbs⟩ := hv.q.inS n b hi.mem
    have hcount := Spec.rentRuns_cons o t
    have cont : ∀ j, (o = .hookRent → 1 ≤ i ∧ j ≤ i - 1) →
        (o ≠ .hookRent → j ≤ i) → Queue.At (step c w o).rent.subQ n b j →
        ∃ l1 l2, o :: t = l1 ++ .hookRent :: l2 ∧ Spec.rentRuns l1 ≤ i ∧
          (∃ k, (run c w l1).rent.contracts.get n = some k ∧ k.rentee ≠ none) ∧
          ((run c w (l1 ++ [.hookRent])).rent.contracts.get n = none ∨
            ∃ e, Spec.entries (run c w (l1 ++ [.hookRent])) n = [(.subscription, e)] ∧
              (run c w l1).now < e) := by
      intro j hj1 hj2 hat
      have hj : j + Spec.rentRuns [o] ≤ i := by
        by_cases e : o = .hookRent
        · subst e
          have h5 : Spec.rentRuns [Op.hookRent] = 1 := rfl
          have := hj1 rfl
          omega
        · have := hj2 e
          rw [Spec.rentRuns_zero e]; omega
      obtain ⟨l1, l2, rfl, f0, f1, f2⟩ := ih (hr.step o ho) (Nat.le_trans hb (step_now_le w o))
        (fun y hy => hl y (by simp [hy])) (fun y hy => hno y (by simp [hy])) (i := j) (by omega) hat
      have := Spec.rentRuns_cons o l1
      exact ⟨o :: l1, l2, rfl, by omega, f1, f2⟩
    by_cases hh : o = .hookRent
    · subst hh
      rcases RentM.hook_sub_at (c := c) hv hr.micro.balInv hi hb with hout | ⟨hge, j, hj, hA⟩
      · refine ⟨[], t, rfl, Nat.zero_le _, ⟨k, hcon, hrt⟩, ?_⟩
        show (step c w .hookRent).rent.contracts.get n = none ∨
          ∃ e, Spec.entries (step c w .hookRent) n = [(.subscription, e)] ∧ w.now < e
        have ht := step_rent_turn hc hr .hookRent ho hcon
        have hr' := hr.step .hookRent ho
        have h30 := (C30 hc hr').2.1 n k
        change ∀ e, (n, e) ∈ (step c w .hookRent).rent.subQ → w.now < e at hout
        generalize step c w .hookRent = w' at ht h30 hout ⊢
        cases ht with
        | stay h =>
          right
          obtain ⟨e, he, _⟩ := h30 h
          have hsch : Spec.scheduleOf k = .subscription := by
            obtain ⟨r, hrt⟩ := Option.ne_none_iff_exists'.1 hrt
            simp [Spec.scheduleOf, hrt, hd]
          rw [hsch] at he
          refine ⟨e, he, hout e ?_⟩
          have hm : (Spec.Schedule.subscription, e) ∈ Spec.entries w' n := by rw [he]; simp
          unfold Spec.entries at hm
          simp only [List.mem_append, List.mem_map, List.mem_filter, Prod.mk.injEq] at hm
          rcases hm with (⟨_, _, h, _⟩ | ⟨_, _, h, _⟩) | ⟨⟨m, e'⟩, ⟨h1, h2⟩, _, h3⟩
          · simp at h
          · simp at h
          · simp at h2 h3; subst h2 h3; exact h1
        | over _ _ _ h => exact Or.inl h
      · exact cont j (fun _ => ⟨hge, hj⟩) (fun h => absurd rfl h) hA
    · obtain ⟨j, hj, hA⟩ := step_sub_at hc hr o ho hi hb hh (hno o (by simp))
      exact cont j (fun h => absurd h hh) (fun _ => hj) hA

example : Reach Demo.cfg (Demo.at_ (subscribed ++ Demo.ticks 5)) ∧
    (Demo.at_ (subscribed ++ Demo.ticks 5)).rent.subQ[0]? = some (0, 5) ∧
    (Demo.at_ (subscribed ++ Demo.ticks 5)).now = 5 ∧
    Spec.entries (Demo.at_ (subscribed ++ Demo.ticks 5 ++ [.hookRent])) 0 = [(.subscription, 10)] ∧
    (Demo.at_ (subscribed ++ Demo.ticks 5 ++ [.hookRent])).bal.freeOf 2 = 9500 :=
  ⟨Demo.reach _ (by decide), by decide, by decide, by decide, by decide⟩

example := C29_partial Demo.cfg_ok (Demo.reach deposits (by decide)) (n := 0) (m := 1) (k := _) rfl
  (Or.inl rfl) (by decide)

example := C29_rentee Demo.cfg_ok (Demo.reach deposits (by decide)) (n := 0) (k := _) rfl (by decide)

example := C31 Demo.cfg_ok (Demo.reach (rented ++ Demo.ticks 10) (by decide))

example := C33_partial Demo.cfg_ok Demo.genesis accepted (by decide) (n := 0) (k := _) (r := 2) rfl
  ⟨by decide, by rintro u ⟨⟩; rfl⟩

example := C34_partial Demo.cfg_ok Demo.genesis offered2 (by decide) (n := 0) (r := 2) (a := 1) (w' := _) rfl

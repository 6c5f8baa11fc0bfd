import Verif.Proofs.ReasonTee
import Verif.Props.Accept
/-
Lemmas for C117: a call of which one of the reasons in `Spec.Why` holds is not accepted.
-/
variable {c : Cfg} {w w' : World} {a : AccountId} {s : String}
set_option maxRecDepth 10000
open Spec Spec.Accept

namespace Spec.Why

/-- Take the conditions of `Accepts` for a signed call apart. -/
macro "open_accept" h:ident : tactic =>
  `(tactic| simp only [Accepts, Entitled, Owns, OwnsColl, OwnsMkt, IsEnclave, Refuse.Fit, Refuse.Nft, Refuse.Idle, Refuse.Synced,
      Refuse.Movable, Refuse.HasRoom, Refuse.Sellable, Room] at $h:ident)

/-- Two statements about one object contradict each other. -/
macro "clash" : tactic =>
  `(tactic| (casesm* Is _ _ _, Why.Coll _ _ _, Market _ _ _, OnSale _ _ _, Auctioned _ _ _, Rental _ _ _, Trans _ _ _,
               Stake _ _ _, _ ∧ _, _ ∨ _, ∃ _, _
             all_goals (try subst_vars)
             all_goals first | omega | (simp_all; done) | (simp_all; omega)))

theorem bars_real {x : Call} {n : NFTId} {f : NFTState → Bool} (hx : about x = some n) (hb : Bars x f s)
    (hf : Is w n (f ·.st = true)) (h : Accepts c w (.signed a) x) : False := by
  obtain ⟨d, hd, hf⟩ := hf
  cases hb <;> cases hx <;> open_accept h <;> simp_all

theorem needs_real {x : Call} {n : NFTId} {f : NFTState → Bool} (hx : about x = some n) (hb : Needs x f s)
    (hf : Is w n (f ·.st = false)) (h : Accepts c w (.signed a) x) : False := by
  obtain ⟨d, hd, hf⟩ := hf
  cases hb <;> cases hx <;> open_accept h <;> simp_all

theorem bound_real {x : Call} {n : NFTId} (hx : about x = some n) (hb : Bound x s)
    (hf : Is w n fun d => d.st.soulbound = true ∧ d.creator ≠ a) (h : Accepts c w (.signed a) x) : False := by
  obtain ⟨d, hd, hf⟩ := hf
  cases hb <;> cases hx <;> open_accept h <;> simp_all

theorem owner_real {x : Call} {n : NFTId} (hx : ownerOnly x = some n)
    (hf : Is w n (·.owner ≠ a)) (h : Accepts c w (.signed a) x) : False := by
  obtain ⟨d, hd, hf⟩ := hf
  unfold ownerOnly at hx
  split at hx <;> cases hx <;> open_accept h <;> simp_all

theorem sale_nft (hc : c.Ok) (hr : Reach c w) {n : NFTId} {x : Sale} (hx : w.mkt.sales.get n = some x) :
    ∃ d, w.nfts.get n = some d :=
  ((hr.inv hc).good n).some_of fun e => by have := congrArg Slice.sale e; simp [slice, Slice.blank, hx] at this

theorem auction_nft (hc : c.Ok) (hr : Reach c w) {n : NFTId} {x : Auction} (hx : w.auc.auctions.get n = some x) :
    ∃ d, w.nfts.get n = some d :=
  ((hr.inv hc).good n).some_of fun e => by have := congrArg Slice.auc e; simp [slice, Slice.blank, hx] at this

theorem noNft_real {x : Call} {n : NFTId} (hc : c.Ok) (hr : Reach c w) (hx : about x = some n)
    (hf : w.nfts.get n = none) (h : Accepts c w (.signed a) x) : False := by
  have sale : ∀ y, w.mkt.sales.get n ≠ some y := fun y hy => by
    obtain ⟨d, hd⟩ := sale_nft hc hr hy; rw [hf] at hd; cases hd
  have auc : ∀ y, w.auc.auctions.get n ≠ some y := fun y hy => by
    obtain ⟨d, hd⟩ := auction_nft hc hr hy; rw [hf] at hd; cases hd
  unfold about at hx
  split at hx <;> cases hx <;> open_accept h <;> simp_all

/-- the highest bid is the last one -/
theorem top_bid {l : List (AccountId × Balance)} (h : l.Pairwise (·.2 < ·.2)) {v : Balance}
    (ht : ∀ y, l.getLast? = some y → y.2 < v) : ∀ y ∈ l, y.2 < v := by
  intro y hy
  obtain ⟨t, z, rfl⟩ : ∃ t z, l = t ++ [z] := by
    rcases List.eq_nil_or_concat l with rfl | ⟨t, z, e⟩
    · cases hy
    · exact ⟨t, z, by simpa using e⟩
  have hz := ht z (by simp)
  rcases List.mem_append.1 hy with hy | hy
  · have := (List.pairwise_append.1 h).2.2 y hy z (by simp)
    omega
  · rw [List.mem_singleton.1 hy]; exact hz

theorem share_real {l : List (ClusterId × AccountId)} {k : ClusterId} {op : AccountId} (hs : Refuse.TakesShare c l (k, op)) :
    0 < c.shards ∧ (k, op) ∉ l ∧ (l ≠ [] → ∃ y ∈ l, y.1 = k) := by
  obtain ⟨h1, h2, h3⟩ := hs
  refine ⟨by omega, h2, fun hl => ?_⟩
  cases l with
  | nil => exact absurd rfl hl
  | cons y t => exact ⟨y, by simp, h3 y rfl⟩

theorem full_real {k : CollId} (hn : Coll w k fun y => y.limit.getD c.collLimit ≤ y.nfts.length) (h : Refuse.HasRoom c w k) :
    False := by
  obtain ⟨y, hy, hn⟩ := hn
  obtain ⟨z, hz, _, h1, h2⟩ := h
  obtain rfl : y = z := by rw [hy] at hz; exact Option.some.inj hz
  cases e : y.limit with
  | none => simp only [e, Option.getD_none] at hn; omega
  | some l => have := h2 l e; simp only [e, Option.getD_some] at hn; omega

theorem fees_real {f g : Balance} (h : CanPayAll c.ed (purse w.bal) [fee a f, fee a g]) : Holds w a ((f + g) % 2 ^ 128) :=
  (RentM.check_iff _ _ _).1 (NftM.check_two h)

set_option maxHeartbeats 1000000 in
theorem nft_real {x : NftM.Call} (hx : Nft c w a x s) (h : Accepts c w (.signed a) (.nft x)) : False := by
  cases hx with
  | noColl hk hn => cases x <;> cases hk <;> open_accept h <;> simp_all
  | collOwner hk hn => obtain ⟨y, hy, hn⟩ := hn; cases x <;> cases hk <;> open_accept h <;> simp_all
  | closed hk hn => obtain ⟨y, hy, hn⟩ := hn; cases x <;> cases hk <;> open_accept h <;> simp_all
  | full hk hn =>
    cases x <;> cases hk <;> simp only [Accepts, Refuse.Fit] at h
    all_goals first | exact full_real hn h.2.1.1 | exact full_real hn (h.2.1 _ rfl)
  | secretFees hn => exact hn (fees_real h.2.2.2)
  | capsuleFees hn => exact hn (fees_real h.2.2.2)
  | enclave hx h1 h2 => rcases hx with rfl | rfl <;> open_accept h <;> clash
  | cluster hl h1 h2 h3 h4 =>
    cases x <;> simp only [sharesFor, reduceCtorEq] at hl <;>
    · obtain ⟨_, ⟨_, op', k', g1, g2, hs⟩, _⟩ := h
      rw [h1] at g1; cases g1
      rw [h2] at g2; cases g2
      rw [hl] at hs
      obtain ⟨y, hy, e⟩ := (share_real hs).2.2 h3
      exact h4 y hy e
  | again hl h1 h2 h3 =>
    cases x <;> simp only [sharesFor, reduceCtorEq] at hl <;>
    · obtain ⟨_, ⟨_, op', k', g1, g2, hs⟩, _⟩ := h
      rw [h1] at g1; cases g1
      rw [h2] at g2; cases g2
      rw [hl] at hs
      exact (share_real hs).2.1 h3
  | noShares1 h1 =>
    obtain ⟨_, ⟨_, op', k', g1, g2, hs⟩, _⟩ := h
    have := (share_real hs).1
    omega
  | noShares2 h1 =>
    obtain ⟨_, ⟨_, op', k', g1, g2, hs⟩, _⟩ := h
    have := (share_real hs).1
    omega
  | _ => open_accept h; clash

theorem mkt_real {x : MktM.Call} (hx : Mkt c w a x s) (h : Accepts c w (.signed a) (.mkt x)) : False := by
  cases hx <;> open_accept h <;> clash

theorem auc_real {x : AucM.Call} (hc : c.Ok) (hr : Reach c w) (hx : Auc c w a x s) (h : Accepts c w (.signed a) (.auc x)) : False := by
  have top : ∀ {n y v}, w.auc.auctions.get n = some y → (∀ z, y.bids.getLast? = some z → z.2 < v) → ∀ z ∈ y.bids, z.2 < v :=
    fun hy => top_bid ((hr.auc hc).ok _ _ hy).ladder
  cases hx with
  | outbid hn =>
    obtain ⟨y, hy, z, hz, hl⟩ := hn
    obtain ⟨_, ⟨y', hy', _, _, _, ht⟩, _⟩ := h
    rw [hy] at hy'; cases hy'
    have := top hy ht z hz
    omega
  | higher hn =>
    obtain ⟨y, hy, z, hz, hl⟩ := hn
    obtain ⟨_, ⟨y', hy', _, ht⟩, _⟩ := h
    rw [hy] at hy'; cases hy'
    have := top hy ht z hz
    omega
  | noBid hn =>
    obtain ⟨y, hy, hn⟩ := hn
    obtain ⟨⟨y', v, hy', hv⟩, _⟩ := h
    rw [hy] at hy'; cases hy'
    exact hn _ hv rfl
  | _ => open_accept h; clash

theorem give_real {r : AccountId} {k : Contract} {s1 s2 : String} (hg : Give w r k s1 s2 s) (h : Refuse.CanGive w r k) : False := by
  obtain ⟨h1, h2⟩ := h
  cases hg <;> simp_all [Refuse.rentIn, Refuse.depositIn, Refuse.Nft]
  all_goals clash

theorem start_real {n : NFTId} {r : AccountId} {k : Contract} (hk : w.rent.contracts.get n = some k) (hs : Start c w r k s)
    (h1 : Refuse.CanGive w r k) (h2 : RentRoom c w k.duration) (h3 : CanPayAll c.ed (purse w.bal) (rentDues c w n r)) : False := by
  simp only [rentDues, hk, Option.elim_some] at h3
  cases hs with
  | give hg => exact give_real hg h1
  | rent hn => exact hn h3.1
  | deposit hn => exact hn h3.2.1
  | room hn => exact hn h2

set_option maxHeartbeats 1000000 in
theorem rent_real {x : RentM.Call} (hc : c.Ok) (hr : Reach c w) (hx : Rent c w a x s) (h : Accepts c w (.signed a) (.rent x)) : False := by
  cases hx with
  | noDeposit hz hn =>
    obtain ⟨_, ⟨_, _, _, _, _, h1, h2, _⟩, _⟩ := h
    rcases hz with rfl | rfl
    · obtain ⟨d, hd, _⟩ := h2 _ rfl
      rw [hn] at hd; cases hd
    · obtain ⟨d, hd, _⟩ := h1 _ rfl
      rw [hn] at hd; cases hd
  | noRent hn =>
    obtain ⟨_, ⟨_, _, _, _, h1, _⟩, _⟩ := h
    obtain ⟨d, hd, _⟩ := h1 _ rfl
    rw [hn] at hd; cases hd
  | funds hn => exact hn h.2.2.2.1
  | notPledgeable hn =>
    obtain ⟨y, hy, hn⟩ := hn
    obtain ⟨_, ⟨_, _, _, _, _, _, h2, _⟩, _⟩ := h
    obtain ⟨d, hd, _, hp⟩ := h2 _ rfl
    rw [hy] at hd; cases hd
    exact hn hp
  | none hk hn => cases x <;> cases hk <;> open_accept h <;> clash
  | owner hk hn => cases x <;> cases hk <;> open_accept h <;> clash
  | list hz hn =>
    obtain ⟨y, hy, l, hl, hn⟩ := hn
    rcases hz with rfl | rfl <;> obtain ⟨⟨k, hk, _, _, _, hm⟩, _⟩ := h <;> rw [hy] at hk <;> cases hk <;>
      rcases hl with hl | hl <;> rw [hl] at hm <;> exact hn (hm _ rfl)
  | start hs =>
    obtain ⟨k, hk, hs⟩ := hs
    obtain ⟨_, _, ⟨k', hk', h1, h2⟩, h3⟩ := h
    rw [hk] at hk'; cases hk'
    exact start_real hk hs h1 h2 h3
  | accept hs =>
    obtain ⟨k, hk, hs⟩ := hs
    obtain ⟨_, _, ⟨k', hk', h1, h2⟩, h3⟩ := h
    rw [hk] at hk'; cases hk'
    exact start_real hk hs h1 h2 h3
  | running3 hn =>
    obtain ⟨k, hk, hn⟩ := hn
    obtain ⟨_, ⟨_, _, k', hk', h1, _⟩, _⟩ := h
    rw [hk] at hk'; cases hk'
    exact hn (((hr.inv hc).rent.q.con _ _ hk).start.1 h1)
  | give hs =>
    obtain ⟨k, hk, hs⟩ := hs
    obtain ⟨_, ⟨_, _, k', hk', _, h1, _⟩, _⟩ := h
    rw [hk] at hk'; cases hk'
    exact give_real hs h1
  | noOffers hz hn =>
    rcases hz with rfl | ⟨r, rfl⟩ <;> simp only [Accepts, Entitled, Offers] at h <;> clash
  | noOffer1 hn => simp only [Accepts, Entitled, Offers] at h; clash
  | noOffer2 hn => simp only [Accepts, Entitled, Offers] at h; clash
  | _ => open_accept h; clash

theorem tr_real {x : TrM.Call} (hc : c.Ok) (hr : Reach c w) (hx : Tr c w a x s) (h : Accepts c w (.signed a) (.tr x)) : False := by
  have con : ∀ {p l t}, consents p = some (l, t) → Refuse.Consentable c.trConsents p →
      l.Nodup ∧ l.length ≤ c.trConsents ∧ 0 < t ∧ t ≤ l.length := by
    intro p l t hp h
    cases p <;> simp only [consents, reduceCtorEq, Option.some.injEq, Prod.mk.injEq] at hp
    all_goals
      obtain ⟨rfl, rfl⟩ := hp
      exact h
  cases hx with
  | long hp hn => have := con hp h.2.1.2.2.2.1; omega
  | twice hp hn => exact hn (con hp h.2.1.2.2.2.1).1
  | zero hp hn => have := con hp h.2.1.2.2.2.1; omega
  | high hp hn => have := con hp h.2.1.2.2.2.1; omega
  | short hp hn => have := con hp h.2.1.2.2.2.1; omega
  | noConsent hn =>
    obtain ⟨t, ht, hn⟩ := hn
    obtain ⟨⟨t', ht', hm⟩, _⟩ := h
    rw [ht] at ht'; cases ht'
    cases e : t.protocol <;> simp [e, consents, consenters] at hn hm
  | stranger hn =>
    obtain ⟨t, ht, l, k, hl, hn⟩ := hn
    obtain ⟨⟨t', ht', hm⟩, _⟩ := h
    rw [ht] at ht'; cases ht'
    cases e : t.protocol <;> simp only [e, consents, consenters, reduceCtorEq, Option.some.injEq, Prod.mk.injEq] at hl hm
    all_goals
      obtain ⟨rfl, rfl⟩ := hl
      exact hn hm
  | agreed hn =>
    obtain ⟨t, ht, ⟨l, k, e, hp⟩, b, hb⟩ := hn
    obtain ⟨_, ⟨_, _, t', ht', hm⟩, _⟩ := h
    rw [ht] at ht'; cases ht'
    have := hm l k e hp
    cases ((hr.inv hc).tr.wf.find.2 hb).symm.trans this
  | full2 hn hq =>
    obtain ⟨t, ht, l, k, e, hp, h1, h2⟩ := hn
    have := h.2.2.1 t l k e ht hp h1 h2
    omega
  | _ => open_accept h; clash

set_option maxHeartbeats 1000000 in
theorem tee_real {x : TeeM.Call} (hr : Reach c w) (hx : Tee c w a x s) (h : Accepts c w (.signed a) (.tee x)) : False := by
  cases hx with
  | leaving hn => exact (h.2.1 (hr.tinv.unrData _ hn)).1 hn
  | noServer hn =>
    obtain ⟨⟨y, hy, e, _⟩, _⟩ := h
    exact hn y hy e
  | server hn =>
    obtain ⟨z, hz, e1, hn⟩ := hn
    obtain ⟨⟨y, hy, e2, hk⟩, _⟩ := h
    have : z = y := List.inj_on_of_nodup_map hr.ginv.srv hz hy (by rw [e1, e2])
    exact hn (this ▸ hk)
  | reports hn =>
    obtain ⟨e, l, he, rfl, h1, h2⟩ := hn
    obtain ⟨_, _, hm, _⟩ := h
    rcases hm e he with ⟨y, hy, hb⟩ | hm
    · exact h1 y hy hb
    · omega
  | _ => open_accept h; clash

theorem br_real {x : BrM.Call} (hx : Br c w a x s) (h : Accepts c w (.signed a) (.br x)) : False := by
  cases hx with
  | @many k t hn =>
    obtain ⟨l, rfl, hn⟩ := hn
    obtain ⟨_, ⟨_, h1⟩, h2, _⟩ := h
    have h2 : 0 < c.relayerLimit := h2
    cases e : w.br.votes.get (k, t) with
    | none => simp only [e, Option.elim_none, List.length_nil] at hn; omega
    | some p => have := h1 p e; simp only [e, Option.elim_some] at hn; omega
  | funds hn =>
    have := BrM.deposit_holds h.2.2.2
    omega
  | _ => open_accept h; clash

theorem root_real {x : TeeM.RootCall} (hr : Reach c w) (hx : Root c w x s) (h : Accepts c w .root (.root (.tee x))) : False := by
  cases hx with
  | noServer hz hn =>
    rcases hz with rfl | ⟨t, rfl⟩ <;> obtain ⟨⟨y, hy, e⟩, _⟩ := h <;> exact hn y hy e
  | notAssigned hn => exact h.1 ((hr.tinv.era _).2 hn)
  | _ => simp only [Accepts, Refuse.FitRoot, RoomRoot] at h; clash

theorem committee_real {x : BrM.ExtCall} (hx : Committee c w x s) (h : Refuse.FitExt c w x ∧ NonceFits x) : False := by
  cases hx <;> simp only [Refuse.FitExt, NonceFits] at h <;> clash

/-- a reason precludes acceptance -/
theorem reason_real {x : Call} (hc : c.Ok) (hr : Reach c w) (hx : Reason c w a x s) (h : Accepts c w (.signed a) x) : False := by
  cases hx with
  | noNft h1 h2 => exact noNft_real hc hr h1 h2 h
  | owner h1 h2 => exact owner_real h1 h2 h
  | bars h1 h2 h3 => exact bars_real h1 h2 h3 h
  | needs h1 h2 h3 => exact needs_real h1 h2 h3 h
  | bound h1 h2 h3 => exact bound_real h1 h2 h3 h
  | pay hu => exact unpaid_cannot hu h.2.2.2
  | nft hx => exact nft_real hx h
  | mkt hx => exact mkt_real hx h
  | auc hx => exact auc_real hc hr hx h
  | rent hx => exact rent_real hc hr hx h
  | tr hx => exact tr_real hc hr hx h
  | tee hx => exact tee_real hr hx h
  | br hx => exact br_real hx h

theorem states_real {x : Call} {o : Origin} (hc : c.Ok) (hr : Reach c w) (hx : States c w o x s) : ¬ Accepts c w o x := by
  intro h
  cases hx with
  | origin hm =>
    cases o <;> cases x <;> simp [MayCall] at hm <;> simp [Accepts, Entitled] at h
  | signed hx => exact reason_real hc hr hx h
  | root hx => exact root_real hr hx h
  | byRoot hx => exact committee_real hx h
  | byCommittee hx => exact committee_real hx h

end Spec.Why

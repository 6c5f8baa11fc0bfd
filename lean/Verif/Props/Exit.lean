import Verif.Props.Rent
import Verif.Props.Auction
import Verif.Props.Transmission
import Verif.Props.Market
import Verif.Proofs.Coll
/-
Property C65: nobody is locked in.
-/
variable {c : Cfg} {w w' : World} {a : AccountId}
set_option maxRecDepth 10000

/-- evaluate a call whose conditions are known -/
macro "eval_ok" "[" l:Lean.Parser.Tactic.simpLemma,* "]" : tactic =>
  `(tactic| simp [dispatch, signedCall, getOr, require, bind, Except.bind, pure, Except.pure, $l,*])

/-- Whoever offers an NFT for sale can withdraw it at any time: the call succeeds, costs nothing, and
the NFT is theirs and no longer listed. -/
theorem C65_unlist (hc : c.Ok) (hr : Reach c w) {n : NFTId} {s : Sale}
    (h : w.mkt.sales.get n = some s) :
    ∃ w' d, dispatch c (.mkt (.unlist n)) (.signed s.seller) w = .ok w' ∧
      w'.mkt.sales.get n = none ∧ w'.bal = w.bal ∧ w.nfts.get n = some d ∧ d.owner = s.seller ∧
      w'.nfts.get n = some { d with st := { d.st with listed := false } } := by
  have hg := (hr.inv hc).good n
  cases hd : w.nfts.get n with
  | none =>
    have := congrArg Slice.sale (hg.gone hd)
    simp [slice, h, Slice.blank] at this
  | some d =>
    have ho : d.owner = s.seller := ((hg.nft d hd).seller s h).symm
    obtain ⟨w', h'⟩ : ∃ w', dispatch c (.mkt (.unlist n)) (.signed s.seller) w = .ok w' := by
      eval_ok [MktM.call, MktM.unlist, hd, h, ho]
    refine ⟨w', d, h', ?_⟩
    simp only [dispatch, signedCall, MktM.call, MktM.unlist] at h'; inv_ok at h'
    obtain ⟨d', _, hd', _, _, rfl⟩ := h'
    rw [hd] at hd'; simp at hd'; subst hd'
    simp [World.putNft, ho]

example : Reach Demo.cfg (Demo.at_ listed) ∧
    (Demo.at_ listed).mkt.sales.get 0 = some { seller := 1, mkt := 0, price := 1000, commission := some (.percentage ⟨100000, by omega⟩) } :=
  ⟨Demo.reach _ (by decide), by decide⟩

/-- The creator of an auction that has not started can cancel it. -/
theorem C65_auction (hc : c.Ok) (hr : Reach c w) {n : NFTId} {x : Auction}
    (h : w.auc.auctions.get n = some x) (hs : w.now < x.start) :
    ∃ w' d, dispatch c (.auc (.cancel n)) (.signed x.creator) w = .ok w' ∧
      w'.auc.auctions.get n = none ∧ ¬ Spec.Scheduled w' n ∧ w'.bal = w.bal ∧
      w.nfts.get n = some d ∧ d.owner = x.creator ∧
      w'.nfts.get n = some { d with st := { d.st with listed := false } } := by
  have hg := (hr.inv hc).good n
  cases hd : w.nfts.get n with
  | none =>
    have := congrArg Slice.auc (hg.gone hd)
    simp [slice, h, Slice.blank] at this
  | some d =>
    have ho : x.creator = d.owner := (hg.nft d hd).creator x h
    have hs' : ¬ x.start ≤ w.now := by omega
    obtain ⟨w', h'⟩ : ∃ w', dispatch c (.auc (.cancel n)) (.signed x.creator) w = .ok w' := by
      eval_ok [AucM.call, AucM.cancel, hd, h, hs']
    refine ⟨w', d, h', ?_⟩
    simp only [dispatch, signedCall, AucM.call, AucM.cancel] at h'; inv_ok at h'
    obtain ⟨d', x', hd', hx, _, _, rfl⟩ := h'
    rw [hd] at hd'; simp at hd'; subst hd'
    rw [Spec.scheduled_iff]
    refine ⟨by simp, ?_, rfl, rfl, ho.symm, by simp [World.putNft]⟩
    have hq := (hr.auc hc).wf
    simp only [World.putNft]
    intro hm
    exact (Queue.mem_ids_remove hq |>.1 hm).2 rfl

/-- account 1 puts NFT 0 up for auction from block 5 -/
abbrev upcoming : List Op :=
  [Demo.mint1, Demo.by_ 3 (.mkt (.create .pub)), Demo.by_ 1 (.auc (.create 0 0 5 15 100 none))]

example : Reach Demo.cfg (Demo.at_ upcoming) ∧ ∃ x, (Demo.at_ upcoming).auc.auctions.get 0 = some x ∧
    (Demo.at_ upcoming).now < x.start ∧ x.creator = 1 :=
  ⟨Demo.reach _ (by decide), _, rfl, by decide, by decide⟩

/-- contract `k` of NFT `n` is over and everything is back: all deposits, and the NFT, free, with its
renter; nothing else changed -/
structure Spec.Released (c : Cfg) (n : NFTId) (k : Contract) (w w' : World) : Prop where
  gone : ∀ m, w'.rent.contracts.get m = if m = n then none else w.rent.contracts.get m
  entries : Spec.entries w' n = []
  tokens : Spec.PaysOut c c.rentPot (Spec.deposited k) (Spec.refund k) w.bal w'.bal
  nft : ∃ d, w.nfts.get n = some d ∧ d.owner = k.renter ∧
    w'.nfts.get n = some { d with st := { d.st with rented := false } }
  renterNft : ∀ m, Spec.nftOf k.renterFee = some m → m ≠ n →
    ∃ d, w.nfts.get m = some d ∧ w'.nfts.get m = some { d with owner := k.renter }
  others : ∀ m, m ≠ n → ¬ Spec.Deposit k m → w'.nfts.get m = w.nfts.get m

/-- The renter can withdraw an NFT nobody rents, and gets the deposit back. -/
theorem C65_rent (hc : c.Ok) (hr : Reach c w) {n : NFTId} {k : Contract}
    (h : w.rent.contracts.get n = some k) (hk : k.rentee = none) :
    ∃ w', dispatch c (.rent (.cancel n)) (.signed k.renter) w = .ok w' ∧
      (∀ r, ¬ Spec.Offers w' n r) ∧ Spec.Released c n k w w' := by
  have hi := (hr.inv hc).rent
  have h1 : ∃ w', dispatch c (.rent (.cancel n)) (.signed k.renter) w = .ok w' := by
    have hi' : RentM.RInv c { w with rent := { w.rent with offers := w.rent.offers.erase n } } := by
      refine ⟨?_, hi.dep.frame rfl (fun _ h => h) (fun n k d _ hd => ⟨d, hd, rfl, rfl⟩), hi.solv⟩
      have := hi.q.setOffers (n := n) (o := none) (by simp) (by simp)
      simpa [FMap.set] using this
    obtain ⟨w1, hf⟩ := hi'.finish_succeeds hr.micro.balInv h
    have hcm := RentM.handleFinished_comm (c := c) (n := n)
      { w with rent := { w.rent with offers := w.rent.offers.erase n } }
      w.rent.fixedQ w.rent.subQ (w.rent.availQ.remove n)
    rw [hf] at hcm
    simp only [RentM.setQ] at hcm
    eval_ok [RentM.call, RentM.cancel, h, hk, Act.ext, hcm]
  obtain ⟨w', h'⟩ := h1
  refine ⟨w', h', ?_⟩
  have hd := rent_did h'
  cases hd with
  | @cancel _ k' b f hk' _ _ hf =>
    rw [h] at hk'; simp at hk'; subst hk'
    refine ⟨by simp [Spec.Offers], fun m => FMap.get_erase _ _ _, ?_, ?_, ?_, ?_, ?_⟩
    · have hr' := hr.step (.call (.signed k.renter) (.rent (.cancel n))) (hi.dep.renter n k h)
      simp only [step, h', orSame] at hr'
      exact (C30 hc hr').1 n (by simp)
    · rw [Spec.deposited_eq]
      exact Spec.PaysOut.of (hf.out hi h) Spec.refund_eq
    · obtain ⟨d, hd⟩ := hi.dep.nft n k h
      exact ⟨d, hd, ((hi.dep.ok n k h).owner d hd).1, (hf.nfts hi h).1 d hd⟩
    · intro m hm hne
      rw [Spec.nftOf_eq] at hm
      obtain ⟨d, hd, _⟩ := (hi.dep.ok n k h).held m (Or.inl ⟨hm, hne⟩)
      exact ⟨d, hd, by rw [(hf.nfts hi h).2.1 m hne hm, hd]; rfl⟩
    · intro m hne hm
      exact (hf.nfts hi h).2.2.2 m hne fun h => hm ((Spec.deposit_iff hne).2 h)
  | start _ hs =>
    rcases hs with ⟨h, _⟩ | ⟨h, _⟩ <;> simp at h

/-- account 1 offers NFT 0 for rent with the deposit NFT 1 -/
abbrev idle : List Op :=
  [Demo.mint1, Demo.mint1, Demo.by_ 1 (.rent (.create 0 (.fixed 10) (.manual none) true (.tokens 100)
    (.nft 1) (.fixed 300))), Demo.by_ 2 (.rent (.makeOffer 0 0)), Demo.by_ 4 (.rent (.makeOffer 0 0))]

example : Reach Demo.cfg (Demo.at_ idle) ∧ ∃ k, (Demo.at_ idle).rent.contracts.get 0 = some k ∧
    k.rentee = none ∧ k.renter = 1 ∧ k.renterFee = .nft 1 ∧
    ((Demo.at_ idle).nfts.get 1).map (·.owner) = some 102 :=
  ⟨Demo.reach _ (by decide), _, rfl, by decide, by decide, by decide, by decide⟩

/-- Whoever has an outstanding offer can retract it. -/
theorem C65_offer (hc : c.Ok) (hr : Reach c w) {n : NFTId} (h : Spec.Offers w n a) :
    ∃ w', dispatch c (.rent (.retractOffer n)) (.signed a) w = .ok w' ∧
      ¬ Spec.Offers w' n a ∧ ∀ b, b ≠ a → (Spec.Offers w' n b ↔ Spec.Offers w n b) := by
  obtain ⟨l, h1, h2⟩ := h
  have hn := hr.offers_nodup hc n l h1
  obtain ⟨w', h'⟩ : ∃ w', dispatch c (.rent (.retractOffer n)) (.signed a) w = .ok w' := by
    eval_ok [RentM.call, RentM.retractOffer, h1, h2]
  refine ⟨w', h', ?_⟩
  simp only [dispatch, signedCall, RentM.call, RentM.retractOffer] at h'; inv_ok at h'
  obtain ⟨l', hl', _, rfl⟩ := h'
  rw [h1] at hl'; simp at hl'; subst hl'
  simp only [Spec.Offers, FMap.get_insert_self, Option.some.injEq, exists_eq_left', h1]
  refine ⟨fun hm => (hn.mem_erase_iff.1 hm).1 rfl, fun b hb => ?_⟩
  rw [hn.mem_erase_iff]; exact ⟨fun h => h.2, fun h => ⟨hb, h⟩⟩

example : Reach Demo.cfg (Demo.at_ idle) ∧ Spec.Offers (Demo.at_ idle) 0 2 ∧
    Spec.Offers (Demo.at_ idle) 0 4 :=
  ⟨Demo.reach _ (by decide), ⟨_, rfl, by decide⟩, ⟨_, rfl, by decide⟩⟩

/-- The owner of an NFT can withdraw a transmission as long as it may be cancelled. -/
theorem C65_transmission (hc : c.Ok) (hr : Reach c w) {n : NFTId} {t : Transmission}
    (h : w.tr.trans.get n = some t)
    (ht : t.cancellation = .anytime ∨ ∃ b, t.cancellation = .untilBlock b ∧ w.now ≤ b) :
    ∃ d w', w.nfts.get n = some d ∧
      dispatch c (.tr (.remove n)) (.signed d.owner) w = .ok w' ∧ w'.tr.trans.get n = none ∧
      w'.nfts.get n = some { d with st := { d.st with transmission := false } } ∧ w'.bal = w.bal := by
  have hg := (hr.inv hc).good n
  cases hd : w.nfts.get n with
  | none =>
    have := congrArg Slice.tr (hg.gone hd)
    simp [slice, h, Slice.blank] at this
  | some d =>
    have hf : d.st.transmission = true := (hg.nft d hd).trans.2 (by simp [slice, h])
    have hcan : TrM.cancellable w.now t.cancellation = true := by
      rcases ht with ht | ⟨b, ht, hb⟩ <;> simp [ht, TrM.cancellable, *]
    obtain ⟨w', h'⟩ : ∃ w', dispatch c (.tr (.remove n)) (.signed d.owner) w = .ok w' := by
      eval_ok [TrM.call, TrM.remove, hd, h, hf, hcan]
    refine ⟨d, w', rfl, h', ?_⟩
    simp only [dispatch, signedCall, TrM.call, TrM.remove] at h'; inv_ok at h'
    obtain ⟨d', t', hd', _, _, h3, _, rfl⟩ := h'
    rw [hd] at hd'; simp at hd'; subst hd'
    simp [World.putNft]

example : Reach Demo.cfg (Demo.at_ timed) ∧ ∃ t, (Demo.at_ timed).tr.trans.get 0 = some t ∧
    t.cancellation = .anytime :=
  ⟨Demo.reach _ (by decide), _, rfl, by decide⟩

/-- The owner of a delegated NFT can take the delegation back. -/
theorem C65_delegation (hc : c.Ok) (hr : Reach c w) {n : NFTId} {r : AccountId}
    (h : w.nft.deleg.get n = some r) :
    ∃ d w', w.nfts.get n = some d ∧
      dispatch c (.nft (.delegateNft n none)) (.signed d.owner) w = .ok w' ∧
      w'.nft.deleg.get n = none ∧ w'.bal = w.bal ∧
      w'.nfts.get n = some { d with st := { d.st with delegated := false } } := by
  have hg := (hr.inv hc).good n
  cases hd : w.nfts.get n with
  | none =>
    have := congrArg Slice.deleg (hg.gone hd)
    simp [slice, h, Slice.blank] at this
  | some d =>
    have g := hg.nft d hd
    have hf : d.st.delegated = true := g.deleg.2 (by simp [slice, h])
    obtain ⟨e1, e2⟩ := g.exD hf
    have e3 : d.st.listed = false := by
      cases e : d.st.listed with
      | false => rfl
      | true => have := (g.exL e).2.2.1; rw [hf] at this; simp at this
    have e4 : d.st.rented = false := by
      cases e : d.st.rented with
      | false => rfl
      | true => have := (g.exR e).2.1; rw [hf] at this; simp at this
    have e5 : d.st.transmission = false := by
      cases e : d.st.transmission with
      | false => rfl
      | true => have := (g.exT e).1; rw [hf] at this; simp at this
    obtain ⟨w', h'⟩ : ∃ w', dispatch c (.nft (.delegateNft n none)) (.signed d.owner) w = .ok w' := by
      eval_ok [NftM.call, NftM.delegateNft, hd, e1, e2, e3, e4, e5]
    refine ⟨d, w', rfl, h', ?_⟩
    simp only [dispatch, signedCall, NftM.call, NftM.delegateNft] at h'; inv_ok at h'
    obtain ⟨d', hd', _, _, _, _, _, _, rfl⟩ := h'
    rw [hd] at hd'; simp at hd'; subst hd'
    simp [World.putNft, FMap.get_set]

/-- account 1 puts NFT 0 into collection 0 and lends it to account 2 -/
abbrev lent : List Op :=
  [Demo.by_ 1 (.nft (.createColl [1] none)),
   Demo.by_ 1 (.nft (.createNft [1] ⟨100000, by omega⟩ (some 0) false)),
   Demo.by_ 1 (.nft (.delegateNft 0 (some 2)))]

example : Reach Demo.cfg (Demo.at_ lent) ∧ (Demo.at_ lent).nft.deleg.get 0 = some 2 :=
  ⟨Demo.reach _ (by decide), by decide⟩

/-- The owner of an NFT that is in nobody's use can burn it: it need not be listed, rented, delegated
or in transmission; collections are no obstacle, closed or not. -/
theorem C65_burn (hc : c.Ok) (hr : Reach c w) {n : NFTId} {d : NFTData} (h : w.nfts.get n = some d)
    (h1 : w.mkt.sales.get n = none) (h2 : w.auc.auctions.get n = none)
    (h3 : w.rent.contracts.get n = none) (h4 : w.tr.trans.get n = none)
    (h5 : w.nft.deleg.get n = none) :
    ∃ w', dispatch c (.nft (.burnNft n)) (.signed d.owner) w = .ok w' ∧ w'.nfts.get n = none ∧
      w'.bal = w.bal := by
  have g := ((hr.inv hc).good n).nft d h
  have hi := hr.coll hc
  have e1 : d.st.listed = false := by
    simpa [slice, h1, h2] using mt g.listed.1
  have e2 : d.st.rented = false := by simpa [slice, h3] using mt g.rented.1
  have e3 : d.st.transmission = false := by simpa [slice, h4] using mt g.trans.1
  have e4 : d.st.delegated = false := by simpa [slice, h5] using mt g.deleg.1
  have h0 : ∃ w', dispatch c (.nft (.burnNft n)) (.signed d.owner) w = .ok w' := by
    cases hk : d.coll with
    | none => eval_ok [NftM.call, NftM.burnNft, h, e1, e2, e3, e4, hk, NftM.dropFromColl]
    | some k =>
      obtain ⟨col, hcol⟩ := Option.ne_none_iff_exists'.1 (hi.ex n d k h hk)
      have hm := (hi.mem k col hcol n).2 ⟨d, h, hk⟩
      eval_ok [NftM.call, NftM.burnNft, h, e1, e2, e3, e4, hk, NftM.dropFromColl, hcol, hm]
  obtain ⟨w', h'⟩ := h0
  refine ⟨w', h', ?_⟩
  simp only [dispatch, signedCall, NftM.call, NftM.burnNft] at h'; inv_ok at h'
  obtain ⟨d', w1, hd', _, _, _, _, _, hx, rfl⟩ := h'
  refine ⟨by simp, ?_⟩
  cases hk : d'.coll <;> simp only [hk, NftM.dropFromColl] at hx <;> frame_auto at hx <;> rfl

/-- … and takes it back and closes the collection -/
abbrev returned : List Op :=
  lent ++ [Demo.by_ 1 (.nft (.delegateNft 0 none)), Demo.by_ 1 (.nft (.closeColl 0))]

example : Reach Demo.cfg (Demo.at_ returned) ∧ (∃ d, (Demo.at_ returned).nfts.get 0 = some d ∧
    d.coll = some 0) ∧ (Demo.at_ returned).nft.deleg.get 0 = none ∧
    (Demo.at_ returned).mkt.sales.get 0 = none ∧ (Demo.at_ returned).auc.auctions.get 0 = none ∧
    (Demo.at_ returned).rent.contracts.get 0 = none ∧ (Demo.at_ returned).tr.trans.get 0 = none :=
  ⟨Demo.reach _ (by decide), ⟨_, rfl, by decide⟩, by decide, by decide, by decide, by decide,
    by decide⟩

/-- The owner of an empty collection can burn it. -/
theorem C65_collection {k : CollId} {col : Coll} (h : w.nft.colls.get k = some col)
    (he : ∀ n d, w.nfts.get n = some d → d.coll ≠ some k) (hc : c.Ok) (hr : Reach c w) :
    ∃ w', dispatch c (.nft (.burnColl k)) (.signed col.owner) w = .ok w' ∧
      w'.nft.colls.get k = none ∧ w'.bal = w.bal := by
  have hi := hr.coll hc
  have hn : col.nfts = [] := by
    rw [List.eq_nil_iff_forall_not_mem]
    intro n hm
    obtain ⟨d, hd, hk⟩ := (hi.mem k col h n).1 hm
    exact he n d hd hk
  obtain ⟨w', h'⟩ : ∃ w', dispatch c (.nft (.burnColl k)) (.signed col.owner) w = .ok w' := by
    eval_ok [NftM.call, NftM.burnColl, h, hn]
  refine ⟨w', h', ?_⟩
  simp only [dispatch, signedCall, NftM.call, NftM.burnColl] at h'; inv_ok at h'
  obtain ⟨col', _, _, _, rfl⟩ := h'
  simp

example : Reach Demo.cfg (Demo.at_ (returned ++ [Demo.by_ 1 (.nft (.burnNft 0))])) ∧
    ((Demo.at_ (returned ++ [Demo.by_ 1 (.nft (.burnNft 0))])).nft.colls.get 0).map (·.owner) = some 1 ∧
    (Demo.at_ (returned ++ [Demo.by_ 1 (.nft (.burnNft 0))])).nfts.l = [] :=
  ⟨Demo.reach _ (by decide), by decide, by decide⟩

/-- the payout of auction 0 has failed, its bid of 100 is still on record; 4 revives it with a bid of 200, 5 bids 300
in auction 1, which runs until block 40; 1 ends auction 0 and 2 claims the refund of 100 -/
abbrev robbed : List Op :=
  doomed ++ blocks 12 ++ [Demo.by_ 4 (.auc (.addBid 0 200)),
    Demo.by_ 1 (.nft (.createNft [1] ⟨0, by omega⟩ none false)), Demo.by_ 1 (.auc (.create 1 0 12 40 100 none)),
    Demo.by_ 5 (.auc (.addBid 1 300)), Demo.by_ 1 (.auc (.end_ 0)), Demo.by_ 2 (.auc .claim)]

/-- C65 fails for bids once the pot is short (`C20_fails`): the refund of a bid of another auction was paid out of the
bid of 5, who cannot withdraw it although the auction runs for another 28 blocks. -/
theorem C65_fails_bid : ∃ w x, Reach Demo.cfg w ∧ w.auc.auctions.get 1 = some x ∧ (5, 300) ∈ x.bids ∧
    Demo.cfg.ending < x.fin - w.now ∧ w.bal.freeOf Demo.cfg.aucPot = 200 ∧
    ∃ e, dispatch Demo.cfg (.auc (.removeBid 1)) (.signed 5) w = .error e :=
  ⟨Demo.at_ robbed, _, Demo.reach _ (by decide), rfl, by decide, by decide, by decide, _, rfl⟩

/-- What holds of bids: a bidder can withdraw the bid until the ending period, and gets it back in full, provided the
pot covers its obligations (`C20_partial`).  Missing: a pot that is short, see `C65_fails_bid`. -/
theorem C65_bid_partial (hc : c.Ok) (hr : Reach c w) (hs : Spec.Covered c 0 w) {n : NFTId} {x : Auction}
    {v : Balance} (h : w.auc.auctions.get n = some x) (hb : (a, v) ∈ x.bids)
    (ht : c.ending < x.fin - w.now) :
    ∃ w', dispatch c (.auc (.removeBid n)) (.signed a) w = .ok w' ∧
      w'.bal.freeOf a = w.bal.freeOf a + v ∧
      (∀ y, y ≠ a → y ≠ c.aucPot → w'.bal.freeOf y = w.bal.freeOf y) ∧
      ∃ y, w'.auc.auctions.get n = some y ∧ ∀ u, (a, u) ∉ y.bids := by
  have ho := (hr.auc hc).ok n x h
  have hf := (AucM.findBid_iff ho.one).2 hb
  have hap : c.aucPot ≠ a := not_pot_ne (ho.bid _ hb).2.2.2 Cfg.pot_auc
  have hed : c.ed < v := (ho.bid _ hb).2.2.1
  have hle : v ≤ Spec.owed w := by
    have h1 : v ≤ (x.bids.map Prod.snd).sum :=
      AucM.mem_le_sum (List.mem_map.2 ⟨(a, v), hb, rfl⟩)
    have h2 := FMap.sumBy_le_of_get (f := fun _ (x : Auction) => (x.bids.map Prod.snd).sum) h
    unfold Spec.owed
    omega
  unfold Spec.Covered at hs
  obtain ⟨b, hb', _⟩ := Bal.transfer_solvent (o := 0) (ed := c.ed) (b := w.bal) (s := c.aucPot) (d := a)
    (v := v) (hr.micro.balInv.pots _ Cfg.pot_auc) (by omega) (Or.inl rfl) (Or.inr (by omega)) hap
  obtain ⟨w', h'⟩ : ∃ w', dispatch c (.auc (.removeBid n)) (.signed a) w = .ok w' := by
    eval_ok [AucM.call, AucM.removeBidCall, h, ht, hf, hb']
  refine ⟨w', h', ?_⟩
  cases auc_act h' with
  | @removeBid _ x' v' b' hx _ hf' ht' =>
    rw [h] at hx; simp at hx; subst hx
    rw [hf] at hf'; simp at hf'; subst hf'
    obtain ⟨δ, g1, _⟩ := Bal.transfer_moves ht'
    refine ⟨?_, fun y hy hy' => ?_, _, FMap.get_insert_self .., ?_⟩
    · have := g1 a hap.symm
      simpa only [_root_.gets, if_true] using this
    · have := g1 y hy'
      simpa only [_root_.gets, hy, if_false, Nat.add_zero] using this
    · intro u hu
      exact ((AucM.removeBid_iff ho.one).1 hu).2 rfl

example : Reach Demo.cfg (Demo.at_ auctioned) ∧ Spec.Covered Demo.cfg 0 (Demo.at_ auctioned) ∧
    ∃ x, (Demo.at_ auctioned).auc.auctions.get 0 = some x ∧ (4, 300) ∈ x.bids ∧
      Demo.cfg.ending < x.fin - (Demo.at_ auctioned).now :=
  ⟨Demo.reach _ (by decide), by unfold Spec.Covered; decide, _, rfl, by decide, by decide⟩

import Verif.Props.UndoSpec
import Verif.Props.Exit
import Verif.Props.Make
import Verif.Props.Observer
import Verif.Proofs.Undo
import Verif.Proofs.Stray
/-
Property C93: what can be taken back leaves no trace.
-/
variable {c : Cfg} {w w' : World} {a : AccountId}
set_option maxRecDepth 10000
open Spec

/-- NFT 0 of account 1, and a public marketplace -/
abbrev shop : List Op := [Demo.mint1, Demo.by_ 3 (.mkt (.create .pub))]

/-- the auction of NFT 0 runs, with a bid of 2 -/
abbrev early : List Op := shop ++ [Demo.by_ 1 (.auc (.create 0 0 0 15 100 none)), Demo.by_ 2 (.auc (.addBid 0 200))]

/-- Listing an NFT for sale and withdrawing it: the seller can always do it, and all is as before the listing.  Only the
listing fee is spent; withdrawing costs nothing. -/
theorem C93_sale (hc : c.Ok) (hr : Reach c w) {n : NFTId} {m : MktId} {p : Balance}
    (h : dispatch c (.mkt (.list n m p)) (.signed a) w = .ok w') :
    ∃ w2, dispatch c (.mkt (.unlist n)) (.signed a) w' = .ok w2 ∧ AsBefore w w2 ∧ w2.bal = w'.bal ∧
      w2.nft.nextNft = w.nft.nextNft ∧ w2.nft.nextColl = w.nft.nextColl ∧ w2.mkt.next = w.mkt.next := by
  simp only [dispatch, signedCall, MktM.call, MktM.list] at h; inv_ok at h
  obtain ⟨d, k, b, h0, h1, h2, h3, h4, h5, h6, h7, h8, h9, h10, h11, h12, rfl⟩ := h
  have hs : w.mkt.sales.get n = none := by
    have := mt ((hr.inv hc).good n |>.nft d h0).listed.2
    simp [slice, h2] at this; exact this.1
  generalize e : World.mk .. = w1
  obtain ⟨w2, h'⟩ : ∃ w2, dispatch c (.mkt (.unlist n)) (.signed a) w1 = .ok w2 := by
    eval_ok [← e, MktM.call, MktM.unlist, World.putNft, World.putBal, h1]
  refine ⟨w2, h', ?_⟩
  simp only [dispatch, signedCall, MktM.call, MktM.unlist] at h'; inv_ok at h'
  obtain ⟨d', s', hd', _, _, rfl⟩ := h'
  subst e
  simp [World.putNft] at hd'; subst hd'
  refine ⟨⟨?_, fun _ => rfl, fun _ => rfl, fun _ => rfl, ⟨rfl, rfl, rfl, rfl, rfl⟩, ⟨rfl, rfl, rfl⟩, rfl,
    ⟨rfl, rfl, rfl, rfl⟩, ⟨rfl, rfl, rfl, rfl, rfl⟩⟩, rfl, rfl, rfl, rfl⟩
  apply View.ext <;> funext x <;> simp only [truth, World.putNft, World.putBal, FMap.get_insert, FMap.get_erase] <;> try rfl
  all_goals split
  · rename_i e; subst e; rw [h0, ← h2]
  · rfl
  · rename_i e; subst e; exact hs.symm
  · rfl

example : Reach Demo.cfg (Demo.at_ shop) ∧
    (dispatch Demo.cfg (.mkt (.list 0 0 1000)) (.signed 1) (Demo.at_ shop)).toOption.isSome :=
  ⟨Demo.reach _ (by decide), by decide⟩

/-- Delegating an NFT and taking the delegation back. -/
theorem C93_delegation (hc : c.Ok) (hr : Reach c w) {n : NFTId} {r : AccountId} (hn : w.nft.deleg.get n = none)
    (h : dispatch c (.nft (.delegateNft n (some r))) (.signed a) w = .ok w') :
    ∃ w2, dispatch c (.nft (.delegateNft n none)) (.signed a) w' = .ok w2 ∧ AsBefore w w2 ∧ w2.bal = w.bal ∧
      w2.nft.nextNft = w.nft.nextNft ∧ w2.nft.nextColl = w.nft.nextColl ∧ w2.mkt.next = w.mkt.next := by
  simp only [dispatch, signedCall, NftM.call, NftM.delegateNft] at h; inv_ok at h
  obtain ⟨d, h0, h1, h2, h3, h4, h5, h6, rfl⟩ := h
  have hs : d.st.delegated = false := by
    simpa [slice, hn] using mt ((hr.inv hc).good n |>.nft d h0).deleg.1
  generalize e : World.mk .. = w1
  obtain ⟨w2, h'⟩ : ∃ w2, dispatch c (.nft (.delegateNft n none)) (.signed a) w1 = .ok w2 := by
    eval_ok [← e, NftM.call, NftM.delegateNft, World.putNft, h1, h2, h3, h4, h5, h6]
  refine ⟨w2, h', ?_⟩
  simp only [dispatch, signedCall, NftM.call, NftM.delegateNft] at h'; inv_ok at h'
  obtain ⟨d', hd', _, _, _, _, _, _, rfl⟩ := h'
  subst e
  simp [World.putNft] at hd'; subst hd'
  refine ⟨⟨?_, fun _ => rfl, fun _ => rfl, fun _ => rfl, ⟨rfl, rfl, rfl, rfl, rfl⟩, ⟨rfl, rfl, rfl⟩, rfl,
    ⟨rfl, rfl, rfl, rfl⟩, ⟨rfl, rfl, rfl, rfl, rfl⟩⟩, rfl, rfl, rfl, rfl⟩
  apply View.ext <;> funext x <;> simp only [truth, World.putNft, FMap.get_insert, FMap.get_set] <;> try rfl
  all_goals split
  · rename_i e; subst e; simp [h0, ← hs]
  · rfl
  · rename_i e; subst e; simp [hn]
  · rfl

example : Reach Demo.cfg (Demo.at_ [Demo.mint1]) ∧ (Demo.at_ [Demo.mint1]).nft.deleg.get 0 = none ∧
    (dispatch Demo.cfg (.nft (.delegateNft 0 (some 2))) (.signed 1) (Demo.at_ [Demo.mint1])).toOption.isSome :=
  ⟨Demo.reach _ (by decide), rfl, by decide⟩

/-- Announcing an auction and cancelling it before it starts.  Nothing is spent. -/
theorem C93_auction (hc : c.Ok) (hr : Reach c w) {n : NFTId} {m : MktId} {s e : Block} {p : Balance} {b : Option Balance}
    (hs : w.now < s) (h : dispatch c (.auc (.create n m s e p b)) (.signed a) w = .ok w') :
    ∃ w2, dispatch c (.auc (.cancel n)) (.signed a) w' = .ok w2 ∧ AsBefore w w2 ∧ w2.bal = w.bal ∧
      w2.nft.nextNft = w.nft.nextNft ∧ w2.nft.nextColl = w.nft.nextColl ∧ w2.mkt.next = w.mkt.next := by
  simp only [dispatch, signedCall, AucM.call, AucM.create] at h; inv_ok at h
  obtain ⟨d, k, q, g1, g2, g3, g4, g5, g6, h0, h1, h2, h3, h4, h5, h6, h7, h8, h9, h10, h11, h12, rfl⟩ := h
  have ha : w.auc.auctions.get n = none := by
    have := mt ((hr.inv hc).good n |>.nft d h0).listed.2
    simp [slice, h2] at this; exact this.2
  have hq : n ∉ Queue.ids w.auc.deadlines := by
    intro hm
    obtain ⟨b, hb⟩ := Queue.mem_ids.1 hm
    obtain ⟨x, hx, _⟩ := (hr.auc hc).inQ n b hb
    rw [ha] at hx; simp at hx
  have hq' : q.remove n = w.auc.deadlines := Queue.remove_insert h12 hq
  have hs' : ¬ s ≤ w.now := by omega
  generalize ee : World.mk .. = w1
  obtain ⟨w2, h'⟩ : ∃ w2, dispatch c (.auc (.cancel n)) (.signed a) w1 = .ok w2 := by
    eval_ok [← ee, AucM.call, AucM.cancel, World.putNft, h1, hs']
  refine ⟨w2, h', ?_⟩
  simp only [dispatch, signedCall, AucM.call, AucM.cancel] at h'; inv_ok at h'
  obtain ⟨d', x', hd', hx', _, _, rfl⟩ := h'
  subst ee
  simp [World.putNft] at hd' hx'; subst hd' hx'
  refine ⟨⟨?_, fun _ => rfl, fun _ => rfl, fun _ => rfl, ⟨hq', rfl, rfl, rfl, rfl⟩, ⟨rfl, rfl, rfl⟩, rfl,
    ⟨rfl, rfl, rfl, rfl⟩, ⟨rfl, rfl, rfl, rfl, rfl⟩⟩, rfl, rfl, rfl, rfl⟩
  apply View.ext <;> funext x <;> simp only [truth, World.putNft, FMap.get_insert, FMap.get_erase] <;> try rfl
  all_goals split
  · rename_i e; subst e; simp [h0, ← h2]
  · rfl
  · rename_i e; subst e; exact ha.symm
  · rfl

example : Reach Demo.cfg (Demo.at_ shop) ∧ (Demo.at_ shop).now < 5 ∧
    (dispatch Demo.cfg (.auc (.create 0 0 5 15 100 none)) (.signed 1) (Demo.at_ shop)).toOption.isSome :=
  ⟨Demo.reach _ (by decide), by decide, by decide⟩

/-- Offering to rent and retracting the offer. -/
theorem C93_offer {n : NFTId} {t : Block} (h : dispatch c (.rent (.makeOffer n t)) (.signed a) w = .ok w') :
    ∃ w2, dispatch c (.rent (.retractOffer n)) (.signed a) w' = .ok w2 ∧ AsBefore w w2 ∧ w2.bal = w.bal ∧
      w2.nft.nextNft = w.nft.nextNft ∧ w2.nft.nextColl = w.nft.nextColl ∧ w2.mkt.next = w.mkt.next := by
  simp only [dispatch, signedCall, RentM.call, RentM.makeOffer] at h; inv_ok at h
  obtain ⟨k, hm, _, _, _, _, _, _, _, _, _, _, _, _, rfl⟩ := h
  generalize e : World.ev .. = w1
  obtain ⟨w2, h'⟩ : ∃ w2, dispatch c (.rent (.retractOffer n)) (.signed a) w1 = .ok w2 := by
    eval_ok [← e, RentM.call, RentM.retractOffer, World.ev]
  refine ⟨w2, h', ?_⟩
  simp only [dispatch, signedCall, RentM.call, RentM.retractOffer] at h'; inv_ok at h'
  obtain ⟨l, hl, _, rfl⟩ := h'
  subst e
  simp [World.ev] at hl; subst hl
  refine ⟨⟨?_, fun _ => rfl, fun _ => rfl, fun _ => rfl, ⟨rfl, rfl, rfl, rfl, rfl⟩, ⟨rfl, rfl, rfl⟩, rfl,
    ⟨rfl, rfl, rfl, rfl⟩, ⟨rfl, rfl, rfl, rfl, rfl⟩⟩, rfl, rfl, rfl, rfl⟩
  apply View.ext <;> funext x <;> simp only [truth, World.ev, FMap.get_insert] <;> try rfl
  split
  · rename_i e; subst e
    simp [List.erase_append_right _ hm]
  · rfl

example : Reach Demo.cfg (Demo.at_ idle) ∧
    (dispatch Demo.cfg (.rent (.makeOffer 0 0)) (.signed 5) (Demo.at_ idle)).toOption.isSome :=
  ⟨Demo.reach _ (by decide), by decide⟩

/-- Setting a transmission protocol that can be cancelled, and removing it.  Only the fee is spent. -/
theorem C93_transmission (hc : c.Ok) (hr : Reach c w) {n : NFTId} {r : AccountId} {p : Protocol} {k : Cancellation}
    (hk : k = .anytime ∨ ∃ b, k = .untilBlock b)
    (h : dispatch c (.tr (.set n r p k)) (.signed a) w = .ok w') :
    ∃ w2, dispatch c (.tr (.remove n)) (.signed a) w' = .ok w2 ∧ AsBefore w w2 ∧ w2.bal = w'.bal ∧
      w2.nft.nextNft = w.nft.nextNft ∧ w2.nft.nextColl = w.nft.nextColl ∧ w2.mkt.next = w.mkt.next := by
  simp only [dispatch, signedCall, TrM.call, TrM.set] at h; inv_ok at h
  obtain ⟨d, q, b, g1, h0, h1, _, _, _, _, _, _, _, h2, _, _, _, _, _, _, _, hq, _, rfl⟩ := h
  have ht : w.tr.trans.get n = none := by
    simpa [slice, h2] using mt ((hr.inv hc).good n |>.nft d h0).trans.2
  obtain ⟨nq, hcons⟩ := (hr.inv hc).tr.absent ht
  have hcan : TrM.cancellable w.now k = true := by
    rcases hk with rfl | ⟨b, rfl⟩
    · rfl
    · have := g1 b rfl
      simp [TrM.cancellable]; omega
  generalize e : World.ev .. = w1
  obtain ⟨w2, h'⟩ : ∃ w2, dispatch c (.tr (.remove n)) (.signed a) w1 = .ok w2 := by
    eval_ok [← e, TrM.call, TrM.remove, World.ev, World.putNft, World.putBal, h1, hcan]
  refine ⟨w2, h', ?_⟩
  simp only [dispatch, signedCall, TrM.call, TrM.remove] at h'; inv_ok at h'
  obtain ⟨d', t', hd', _, _, ht', _, rfl⟩ := h'
  subst e
  simp [World.ev, World.putNft] at hd' ht'; subst hd' ht'
  have hq' : ∀ b, TrM.blockToQueue p = some b → q.remove n = w.tr.queue := by
    intro b hb
    simp only [hb, TrM.enqueue] at hq; inv_ok at hq
    obtain ⟨_, hq⟩ := hq
    exact Queue.remove_insert hq nq
  have hq'' : TrM.blockToQueue p = none → q = w.tr.queue := by
    intro hb; simp only [hb, TrM.enqueue] at hq; inv_ok at hq; exact hq.symm
  refine ⟨⟨?_, fun _ => rfl, fun _ => rfl, fun _ => rfl, ⟨rfl, rfl, rfl, rfl, ?_⟩, ⟨rfl, rfl, rfl⟩, rfl,
    ?_, ⟨rfl, rfl, rfl, rfl, rfl⟩⟩, rfl, rfl, rfl, rfl⟩
  · apply View.ext <;> funext x <;> simp only [truth, World.ev, World.putNft, World.putBal, FMap.get_insert, FMap.get_erase] <;>
      try rfl
    · split
      · rename_i e; subst e; simp [h0, ← h2]
      · rfl
    · cases p <;> simp only [TrM.kind, TrM.cleanup, FMap.get_insert] <;> split <;> simp_all
    · cases p <;> simp only [TrM.kind, TrM.cleanup, FMap.get_erase] <;> try rfl
      all_goals split
      all_goals simp_all
  · cases p <;> first
      | exact hq' _ rfl
      | exact hq'' rfl
      | exact (congrArg (Queue.remove n) (hq'' rfl)).trans (Queue.remove_of_not_mem nq)
  · cases p <;> exact ⟨rfl, rfl, rfl, rfl⟩

example : Reach Demo.cfg (Demo.at_ [Demo.mint1]) ∧
    (dispatch Demo.cfg (.tr (.set 0 2 (.atBlockWithReset 20) (.untilBlock 10))) (.signed 1) (Demo.at_ [Demo.mint1])).toOption.isSome :=
  ⟨Demo.reach _ (by decide), by decide⟩

/-- Sending an NFT that is not bound to its owner, and getting it sent back. -/
theorem C93_transfer {n : NFTId} {d : NFTData} {r : AccountId} (hd : w.nfts.get n = some d) (hs : d.st.soulbound = false)
    (h : dispatch c (.nft (.transferNft n r)) (.signed a) w = .ok w') :
    ∃ w2, dispatch c (.nft (.transferNft n a)) (.signed r) w' = .ok w2 ∧ AsBefore w w2 ∧ w2.bal = w.bal ∧
      w2.nft.nextNft = w.nft.nextNft ∧ w2.nft.nextColl = w.nft.nextColl ∧ w2.mkt.next = w.mkt.next := by
  simp only [dispatch, signedCall, NftM.call, NftM.transferNft] at h; inv_ok at h
  obtain ⟨d', h0, h1, h2, h3, h4, h5, h6, h7, h8, h9, rfl⟩ := h
  rw [hd] at h0; simp at h0; subst h0 h1
  generalize e : World.putNft .. = w1
  obtain ⟨w2, h'⟩ : ∃ w2, dispatch c (.nft (.transferNft n d.owner)) (.signed r) w1 = .ok w2 := by
    eval_ok [← e, NftM.call, NftM.transferNft, World.putNft, h3, h4, h5, h6, h7, h8, h9, hs, Ne.symm h2]
  refine ⟨w2, h', ?_⟩
  simp only [dispatch, signedCall, NftM.call, NftM.transferNft] at h'; inv_ok at h'
  obtain ⟨d', hd', _, _, _, _, _, _, _, _, _, rfl⟩ := h'
  subst e
  simp [World.putNft] at hd'; subst hd'
  refine ⟨⟨?_, fun _ => rfl, fun _ => rfl, fun _ => rfl, ⟨rfl, rfl, rfl, rfl, rfl⟩, ⟨rfl, rfl, rfl⟩, rfl,
    ⟨rfl, rfl, rfl, rfl⟩, ⟨rfl, rfl, rfl, rfl, rfl⟩⟩, rfl, rfl, rfl, rfl⟩
  apply View.ext <;> funext x <;> simp only [truth, World.putNft, FMap.get_insert] <;> try rfl
  split
  · rename_i e; subst e; exact hd.symm
  · rfl

example : Reach Demo.cfg (Demo.at_ [Demo.mint1]) ∧ ((Demo.at_ [Demo.mint1]).nfts.get 0).map (·.st.soulbound) = some false ∧
    (dispatch Demo.cfg (.nft (.transferNft 0 2)) (.signed 1) (Demo.at_ [Demo.mint1])).toOption.isSome :=
  ⟨Demo.reach _ (by decide), by decide, by decide⟩

/-- Creating a collection and burning it.  The id stays used. -/
theorem C93_collection (hc : c.Ok) (hr : Reach c w) {data : Data} {l : Option Nat}
    (h : dispatch c (.nft (.createColl data l)) (.signed a) w = .ok w') :
    ∃ w2, dispatch c (.nft (.burnColl w.nft.nextColl)) (.signed a) w' = .ok w2 ∧ AsBefore w w2 ∧ w2.bal = w.bal ∧
      w2.nft.nextNft = w.nft.nextNft ∧ w2.nft.nextColl = w.nft.nextColl + 1 ∧ w2.mkt.next = w.mkt.next := by
  simp only [dispatch, signedCall, NftM.call, NftM.createColl] at h; inv_ok at h
  obtain ⟨x, _, h1, rfl⟩ := h
  have hx : x = w.nft.nextColl + 1 := by
    split at h1
    · simpa using h1.symm
    · simp at h1
  have hn := (hr.coll hc).fresh _ (Nat.le_refl _)
  generalize e : World.mk .. = w1
  obtain ⟨w2, h'⟩ : ∃ w2, dispatch c (.nft (.burnColl w.nft.nextColl)) (.signed a) w1 = .ok w2 := by
    eval_ok [← e, NftM.call, NftM.burnColl]
  refine ⟨w2, h', ?_⟩
  simp only [dispatch, signedCall, NftM.call, NftM.burnColl] at h'; inv_ok at h'
  obtain ⟨d', hd', _, _, rfl⟩ := h'
  subst e
  have hk : ∀ k, ((w.nft.colls.insert w.nft.nextColl ⟨a, data, [], l, false⟩).erase w.nft.nextColl).get k =
      w.nft.colls.get k := by
    intro k
    rw [FMap.get_erase, FMap.get_insert]
    split
    · rename_i e; subst e; exact hn.symm
    · rfl
  refine ⟨⟨?_, hk, fun _ => rfl, fun _ => rfl, ⟨rfl, rfl, rfl, rfl, rfl⟩, ⟨rfl, rfl, rfl⟩, rfl,
    ⟨rfl, rfl, rfl, rfl⟩, ⟨rfl, rfl, rfl, rfl, rfl⟩⟩, rfl, rfl, hx, rfl⟩
  apply View.ext <;> funext x <;> simp only [truth] <;> try rfl
  exact congrArg (Option.map _) (hk x)

example : Reach Demo.cfg (Demo.at_ opened) ∧
    (dispatch Demo.cfg (.nft (.createColl [2] (some 5))) (.signed 1) (Demo.at_ opened)).toOption.isSome :=
  ⟨Demo.reach _ (by decide), by decide⟩

/-- Minting an NFT, in a collection or not, and burning it.  The id stays used and the fee spent. -/
theorem C93_nft (hc : c.Ok) (hr : Reach c w) {data : Data} {roy : Permill} {k : Option CollId} {sb : Bool}
    (h : dispatch c (.nft (.createNft data roy k sb)) (.signed a) w = .ok w') :
    ∃ w2, dispatch c (.nft (.burnNft w.nft.nextNft)) (.signed a) w' = .ok w2 ∧ AsBefore w w2 ∧ w2.bal = w'.bal ∧
      w2.nft.nextNft = w.nft.nextNft + 1 ∧ w2.nft.nextColl = w.nft.nextColl ∧ w2.mkt.next = w.mkt.next := by
  have hn : w.nfts.get w.nft.nextNft = none := (hr.inv hc).fresh _ (Nat.le_refl _)
  simp only [dispatch, signedCall, NftM.call, NftM.createNft, NftM.createHelper, NftM.nextNftId] at h; inv_ok at h
  obtain ⟨b, v, _, x, _, hp, hx, rfl, rfl⟩ := h
  have hx : x = v.nft.nextNft + 1 := by
    split at hx
    · simpa using hx.symm
    · simp at hx
  cases k with
  | none =>
    simp only [NftM.pushToColl, pure, Except.pure, Except.ok.injEq] at hp
    subst hp
    generalize e : World.putNft .. = w1
    obtain ⟨w2, h'⟩ : ∃ w2, dispatch c (.nft (.burnNft w.nft.nextNft)) (.signed a) w1 = .ok w2 := by
      eval_ok [← e, NftM.call, NftM.burnNft, NftM.dropFromColl, World.putNft, World.putBal]
    refine ⟨w2, h', ?_⟩
    simp only [dispatch, signedCall, NftM.call, NftM.burnNft] at h'; inv_ok at h'
    obtain ⟨d', v, hd', _, _, _, _, _, hv, rfl⟩ := h'
    subst e
    simp [World.putNft, World.putBal] at hd'; subst hd'
    simp only [NftM.dropFromColl, pure, Except.pure, Except.ok.injEq] at hv
    subst hv
    refine ⟨⟨?_, fun _ => rfl, fun _ => rfl, fun _ => rfl, ⟨rfl, rfl, rfl, rfl, rfl⟩, ⟨rfl, rfl, rfl⟩, rfl,
      ⟨rfl, rfl, rfl, rfl⟩, ⟨rfl, rfl, rfl, rfl, rfl⟩⟩, rfl, hx, rfl, rfl⟩
    apply View.ext <;> funext x <;> simp only [truth, World.putNft, World.putBal, FMap.get_insert, FMap.get_erase] <;> try rfl
    split
    · rename_i e; subst e; exact hn.symm
    · rfl
  | some k =>
    simp only [NftM.pushToColl] at hp; inv_ok at hp
    obtain ⟨col, hk, _, _, _, _, rfl⟩ := hp
    have hnot : w.nft.nextNft ∉ col.nfts := by
      intro hm
      obtain ⟨d, hd, _⟩ := ((hr.coll hc).mem k col hk _).1 hm
      rw [hn] at hd; simp at hd
    have hsw : NftM.swapRemove (col.nfts ++ [w.nft.nextNft]) w.nft.nextNft = col.nfts := by
      simp [NftM.swapRemove, hnot]
    generalize e : World.putNft .. = w1
    obtain ⟨w2, h'⟩ : ∃ w2, dispatch c (.nft (.burnNft w.nft.nextNft)) (.signed a) w1 = .ok w2 := by
      eval_ok [← e, NftM.call, NftM.burnNft, NftM.dropFromColl, World.putNft, World.putBal]
    refine ⟨w2, h', ?_⟩
    simp only [dispatch, signedCall, NftM.call, NftM.burnNft] at h'; inv_ok at h'
    obtain ⟨d', v, hd', _, _, _, _, _, hv, rfl⟩ := h'
    subst e
    simp [World.putNft, World.putBal] at hd'; subst hd'
    simp only [NftM.dropFromColl] at hv; inv_ok at hv
    obtain ⟨col', hc', _, rfl⟩ := hv
    simp [World.putNft, World.putBal] at hc'; subst hc'
    have hcol : ∀ j, ((w.nft.colls.insert k { col with nfts := col.nfts ++ [w.nft.nextNft] }).insert k
        { col with nfts := NftM.swapRemove (col.nfts ++ [w.nft.nextNft]) w.nft.nextNft }).get j = w.nft.colls.get j := by
      intro j
      rw [hsw, FMap.get_insert, FMap.get_insert]
      split
      · rename_i e; subst e; exact hk.symm
      · rfl
    refine ⟨⟨?_, hcol, fun _ => rfl, fun _ => rfl, ⟨rfl, rfl, rfl, rfl, rfl⟩, ⟨rfl, rfl, rfl⟩, rfl,
      ⟨rfl, rfl, rfl, rfl⟩, ⟨rfl, rfl, rfl, rfl, rfl⟩⟩, rfl, hx, rfl, rfl⟩
    apply View.ext <;> funext x <;> try rfl
    · simp only [truth, World.putNft, World.putBal, FMap.get_insert, FMap.get_erase]
      split
      · rename_i e; subst e; exact hn.symm
      · rfl
    · exact congrArg (Option.map _) (hcol x)

example : Reach Demo.cfg (Demo.at_ opened) ∧
    (dispatch Demo.cfg (.nft (.createNft [2] ⟨100000, by omega⟩ (some 0) true)) (.signed 1) (Demo.at_ opened)).toOption.isSome :=
  ⟨Demo.reach _ (by decide), by decide⟩

/-- Offering an NFT for rent and cancelling the contract.  Nothing is spent: deposits, tokens and NFTs, are back.  Only offers
left over from an earlier contract are gone. -/
theorem C93_rent (hc : c.Ok) (hr : Reach c w) (ha : ¬ c.pot a) {n : NFTId} {dur : DurationInput} {acc : Acceptance}
    {rv : Bool} {rf : RentFee} {f1 f2 : CancelFee} (ho : (w.rent.offers.get n).getD [] = [])
    (h : dispatch c (.rent (.create n dur acc rv rf f1 f2)) (.signed a) w = .ok w') :
    ∃ w2, dispatch c (.rent (.cancel n)) (.signed a) w' = .ok w2 ∧ AsBefore w w2 ∧ SameMoney w.bal w2.bal ∧
      w2.nft.nextNft = w.nft.nextNft ∧ w2.nft.nextColl = w.nft.nextColl ∧ w2.mkt.next = w.mkt.next := by
  have hr' : Reach c w' := by
    have := hr.step (.call (.signed a) (.rent (.create n dur acc rv rf f1 f2))) ha
    simpa only [step, h, orSame] using this
  simp only [dispatch, signedCall, RentM.call, RentM.create] at h; inv_ok at h
  obtain ⟨d, b0, v, q, _, h0, h1, h2, _, _, _, _, _, _, _, _, _, _, _, t0, hv, hq, e⟩ := h
  have hnr : d.st.rented = false := by simp [RentM.valid] at h2; exact h2.1.1.2
  have hcon : w.rent.contracts.get n = none := by
    simpa [slice, hnr] using mt ((hr.inv hc).good n |>.nft d h0).rented.2
  have hi := (hr.inv hc).rent.q
  have nq : n ∉ Queue.ids w.rent.availQ := by
    intro hm
    obtain ⟨b, hb⟩ := Queue.mem_ids.1 hm
    obtain ⟨x, hx, _⟩ := hi.inA n b hb
    rw [hcon] at hx; simp at hx
  obtain ⟨X, rfl, hX⟩ := RentM.depositRenterNft_back hv
  have hq' : q.remove n = w.rent.availQ := Queue.remove_insert hq nq
  obtain ⟨w2, h', _⟩ := C65_rent (c := c) (w := w') (n := n) (k := _) hc hr'
    (by rw [← e]; exact FMap.get_insert_self ..) rfl
  refine ⟨w2, h', ?_⟩
  cases rent_did h' with
  | @cancel _ k' b f hk' _ _ hf =>
    obtain ⟨d1, b1, hd1, t1, t2, rfl⟩ := hf
    subst e
    simp only [World.ev, World.putNft, World.putBal, FMap.get_insert_self, Option.some.injEq] at hk' hd1 t1
    subst hk' hd1
    have e2 : b = b1 := by
      simp [RentM.renteeTokens, Bal.transfer] at t2; exact t2.symm
    subst e2
    have hap : a ≠ c.rentPot := (not_pot_ne ha Cfg.pot_rent).symm
    refine ⟨⟨?_, fun _ => rfl, fun _ => rfl, fun _ => rfl, ⟨rfl, rfl, rfl, hq', rfl⟩, ⟨rfl, rfl, rfl⟩, rfl,
      ⟨rfl, rfl, rfl, rfl⟩, ⟨rfl, rfl, rfl, rfl, rfl⟩⟩, Bal.transfer_back hr.micro.balInv.wf hap t0 t1, rfl, rfl, rfl⟩
    apply View.ext <;> funext x <;> try rfl
    · have hx := hX x
      simp only [World.putBal, RentM.get_cho] at hx
      simp only [truth, World.ev, World.putNft, World.putBal, FMap.get_insert, RentM.renteeNft, Option.bind, RentM.get_cho]
      split
      · rename_i e; subst e; rw [h0, ← hnr]
      · simp only [reduceCtorEq, if_false]; exact hx
    · simp only [truth, World.ev, World.putNft, World.putBal, FMap.get_insert, FMap.get_erase]
      split
      · rename_i e; subst e; exact hcon.symm
      · rfl
    · simp only [truth, World.ev, World.putNft, World.putBal, FMap.get_erase]
      split
      · rename_i e; subst e; exact ho.symm
      · rfl
  | start _ hs => rcases hs with ⟨h, _⟩ | ⟨h, _⟩ <;> simp at h

example : Reach Demo.cfg (Demo.at_ [Demo.mint1, Demo.mint1]) ∧ ¬ Demo.cfg.pot 1 ∧ ((Demo.at_ [Demo.mint1, Demo.mint1]).rent.offers.get 0).getD [] = [] ∧
    (dispatch Demo.cfg (.rent (.create 0 (.fixed 10) (.manual none) true (.tokens 100) (.nft 1) (.fixed 300))) (.signed 1) (Demo.at_ [Demo.mint1, Demo.mint1])).toOption.isSome :=
  ⟨Demo.reach _ (by decide), by decide, by decide, by decide⟩

example : Reach Demo.cfg (Demo.at_ [Demo.mint1]) ∧
    (dispatch Demo.cfg (.rent (.create 0 (.fixed 10) (.manual none) true (.tokens 100) (.fixed 200) (.fixed 300))) (.signed 1) (Demo.at_ [Demo.mint1])).toOption.isSome :=
  ⟨Demo.reach _ (by decide), by decide⟩

/-- A first bid and its withdrawal, when no other bid was dropped for it and neither the ending nor the grace period has
begun.  The bidder has all the money back, whatever the state of the pot. -/
theorem C93_bid (hc : c.Ok) (hr : Reach c w) (ha : ¬ c.pot a) {n : NFTId} {v : Balance} {x : Auction}
    (hx : w.auc.auctions.get n = some x) (hb : ∀ u, (a, u) ∉ x.bids) (hl : x.bids.length < c.bidLimit)
    (he : c.ending < x.fin - w.now) (hg : c.grace ≤ x.fin - w.now)
    (h : dispatch c (.auc (.addBid n v)) (.signed a) w = .ok w') :
    ∃ w2, dispatch c (.auc (.removeBid n)) (.signed a) w' = .ok w2 ∧ AsBefore w w2 ∧ SameMoney w.bal w2.bal ∧
      w2.nft.nextNft = w.nft.nextNft ∧ w2.nft.nextColl = w.nft.nextColl ∧ w2.mkt.next = w.mkt.next := by
  have hap : a ≠ c.aucPot := (not_pot_ne ha Cfg.pot_auc).symm
  simp only [dispatch, signedCall, AucM.call, AucM.addBid] at h; inv_ok at h
  obtain ⟨x', b, y, q, hx', _, _, hv, _, t0, hi, hq, rfl⟩ := h
  rw [hx] at hx'; simp at hx'; subst hx'
  rw [AucM.findBid_absent hb] at t0
  simp only [Option.getD_none, Nat.sub_zero] at t0
  simp only [AucM.insertBid, AucM.removeBid_none hb, Nat.not_le.2 hl, if_false, Except.ok.injEq] at hi
  subst hi
  have hg' : ¬ x.fin - w.now < c.grace := by omega
  simp only [AucM.extend, hg', if_false, AucM.updateDeadline, pure, Except.pure, Except.ok.injEq] at hq
  subst hq
  have hw := hr.micro.balInv
  have hf1 := Bal.transfer_keep t0 c.aucPot hap
  simp only [if_true] at hf1
  obtain ⟨b2, t1, _⟩ := Bal.transfer_solvent (o := 0) (ed := c.ed) (b := b) (s := c.aucPot) (d := a) (v := v)
    (by rw [Bal.frozen_mono (Bal.transfer_mono t0)]; exact hw.pots _ Cfg.pot_auc) (by omega) (Or.inl rfl)
    (Or.inr (by omega)) hap.symm
  generalize e : World.mk .. = w1
  obtain ⟨w2, h'⟩ : ∃ w2, dispatch c (.auc (.removeBid n)) (.signed a) w1 = .ok w2 := by
    eval_ok [← e, AucM.call, AucM.removeBidCall, AucM.extend, hg', he, AucM.findBid_new hb, World.putBal, t1]
  refine ⟨w2, h', ?_⟩
  cases auc_act h' with
  | @removeBid _ x' v' b' hx1 _ hf' ht' =>
    subst e
    simp [AucM.extend, hg', World.putBal] at hx1 ht'
    subst hx1
    simp only [AucM.findBid_new hb, Option.some.injEq] at hf'
    subst hf'
    rw [t1] at ht'; simp at ht'; subst ht'
    refine ⟨⟨?_, fun _ => rfl, fun _ => rfl, fun _ => rfl, ⟨rfl, rfl, rfl, rfl, rfl⟩, ⟨rfl, rfl, rfl⟩, rfl,
      ⟨rfl, rfl, rfl, rfl⟩, ⟨rfl, rfl, rfl, rfl, rfl⟩⟩, Bal.transfer_back hw.wf hap t0 t1, rfl, rfl, rfl⟩
    apply View.ext <;> funext y <;> try rfl
    simp only [truth, World.putBal, FMap.get_insert]
    split
    · rename_i e; subst e; rw [hx, AucM.removeBid_new hb]
    · rfl

example : Reach Demo.cfg (Demo.at_ early) ∧ ¬ Demo.cfg.pot 4 ∧ ∃ x, (Demo.at_ early).auc.auctions.get 0 = some x ∧ (∀ u, (4, u) ∉ x.bids) ∧
    x.bids.length < Demo.cfg.bidLimit ∧ Demo.cfg.ending < x.fin - (Demo.at_ early).now ∧ Demo.cfg.grace ≤ x.fin - (Demo.at_ early).now ∧
    (dispatch Demo.cfg (.auc (.addBid 0 500)) (.signed 4) (Demo.at_ early)).toOption.isSome :=
  ⟨Demo.reach _ (by decide), by decide, _, rfl, by simp [AucM.removeBid], by decide, by decide, by decide, by decide⟩

/-- Registering an enclave and withdrawing the registration before it is assigned: the stake is free again. -/
theorem C93_registration (hr : Reach c w) {addr : AccountId} {uri : Data}
    (h : dispatch c (.tee (.register addr uri)) (.signed a) w = .ok w') :
    ∃ w2, dispatch c (.tee .unregister) (.signed a) w' = .ok w2 ∧
      w2 = { w with
        bal := w2.bal
        tee := { w.tee with registrations := w2.tee.registrations, ledger := w2.tee.ledger } } ∧
      (∀ y, w2.tee.registrations.get y = w.tee.registrations.get y) ∧
      (∀ y, w2.tee.ledger.get y = w.tee.ledger.get y) ∧ SameMoney w.bal w2.bal := by
  simp only [dispatch, signedCall, TeeM.call, TeeM.register] at h; inv_ok at h
  obtain ⟨h1, h2, h3, h4, h5, h6, h7, h8, rfl⟩ := h
  have hs := hr.noStray a h6
  generalize e : World.mk .. = w1
  obtain ⟨w2, h'⟩ : ∃ w2, dispatch c (.tee .unregister) (.signed a) w1 = .ok w2 := by
    eval_ok [← e, TeeM.call, TeeM.unregister, TeeM.dropRegistration, World.putBal, h4]
  refine ⟨w2, h', ?_⟩
  simp only [dispatch, signedCall, TeeM.call, TeeM.unregister, TeeM.dropRegistration, ← e, World.putBal, h4] at h'
  inv_ok at h'
  obtain ⟨_, _, rfl⟩ := h'
  refine ⟨rfl, fun y => ?_, fun y => ?_, fun y => ?_⟩
  · simp only [FMap.get_erase, FMap.get_insert]
    split
    · rename_i e; subst e; exact h3.symm
    · rfl
  · simp only [FMap.get_erase, FMap.get_insert]
    split
    · rename_i e; subst e; exact h6.symm
    · rfl
  · have hb : ∀ v, ((w.bal.setLock a v).removeLock a).freeOf y = w.bal.freeOf y ∧
        ((w.bal.setLock a v).removeLock a).frozen y = w.bal.frozen y := by
      intro v
      unfold Bal.setLock Bal.removeLock Bal.freeOf Bal.frozen
      split <;> simp only [FMap.get_erase, FMap.get_insert, true_and] <;> split <;> simp_all
    exact hb _

example : Reach Demo.cfg (Demo.at_ Demo.enclaves) ∧
    (dispatch Demo.cfg (.tee (.register 16 [1])) (.signed 6) (Demo.at_ Demo.enclaves)).toOption.isSome :=
  ⟨Demo.reach _ (by decide), by decide⟩

/-- Asking for an update of an enclave and cancelling the request. -/
theorem C93_update {addr : AccountId} {uri : Data} (h : dispatch c (.tee (.update addr uri)) (.signed a) w = .ok w') :
    ∃ w2, dispatch c (.tee .cancelUpdate) (.signed a) w' = .ok w2 ∧
      w2 = { w with tee := { w.tee with updates := w2.tee.updates } } ∧
      ∀ y, w2.tee.updates.get y = w.tee.updates.get y := by
  simp only [dispatch, signedCall, TeeM.call, TeeM.update] at h; inv_ok at h
  obtain ⟨d, h1, h2, h3, h4, h5, rfl⟩ := h
  refine ⟨_, by eval_ok [TeeM.call, TeeM.dropUpdate]; rfl, rfl, fun y => ?_⟩
  simp only [FMap.get_erase, FMap.get_insert]
  split
  · rename_i e; subst e; exact h4.symm
  · rfl

example : Reach Demo.cfg (Demo.at_ Demo.enclaves) ∧
    (dispatch Demo.cfg (.tee (.update 16 [1])) (.signed 8) (Demo.at_ Demo.enclaves)).toOption.isSome :=
  ⟨Demo.reach _ (by decide), by decide⟩

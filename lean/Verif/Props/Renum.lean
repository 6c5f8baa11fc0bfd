import Verif.Proofs.RenumStep
import Verif.Props.Demo
import Verif.Props.Bridge
/-
C128: no NFT, collection, marketplace, cluster, slot or chain number is special.
-/
open Spec

variable {c : Cfg} {w w' : World} {x : Call} {o : Origin}

/-- C128: give other numbers to NFTs, collections, marketplaces, clusters, slots of clusters and chains, everywhere: in the
state, in the arguments of any call, in events.  Only the numbers that are still to be given away are kept.  The call then
does the same up to the numbers, and fails with the same error if it fails. -/
theorem C128_calls (ρ : Num) (hk : ρ.Keeps w) (c : Cfg) (x : Call) (o : Origin) :
    dispatch (ρ.cfg c) (ρ.call x) o (ρ.world w) = (dispatch c x o w).map ρ.world :=
  ρ.dispatch c w hk x o

/-- … and so do block hooks, fees, payouts and whole histories. -/
theorem C128_histories (ρ : Num) (hc : c.Ok) (hr : Reach c w) (hk : ρ.Keeps w) {l : List Op} (hl : ∀ o ∈ l, o.Ok c) :
    run (ρ.cfg c) (ρ.world w) (l.map ρ.op) = ρ.world (run c w l) :=
  Num.run hc l hk hr hl

/-- Existing numbers can be exchanged on the same chain: nothing depends on which of two NFTs, collections, marketplaces or
clusters came first. -/
theorem C128_swap {n n' : NFTId} {k k' : CollId} {m m' : MktId} {cl cl' : ClusterId}
    (hn : n < w.nft.nextNft ∧ n' < w.nft.nextNft ∨ n = n') (hk : k < w.nft.nextColl ∧ k' < w.nft.nextColl ∨ k = k')
    (hm : m < w.mkt.next ∧ m' < w.mkt.next ∨ m = m') (hcl : cl < w.tee.nextCluster ∧ cl' < w.tee.nextCluster ∨ cl = cl')
    (x : Call) (o : Origin) :
    let ρ := swapNums n n' k k' m m' cl cl'
    dispatch c (ρ.call x) o (ρ.world w) = (dispatch c x o w).map ρ.world := by
  intro ρ
  have h : ∀ {a b l y : Nat}, a < l ∧ b < l ∨ a = b → l ≤ y → swapNat a b y = y := by
    intro a b l y hab hy
    unfold swapNat
    rcases hab with ⟨h1, h2⟩ | rfl
    · rw [if_neg (by omega), if_neg (by omega)]
    · split
      · next e => exact e.symm
      · rfl
  exact C128_calls ρ ⟨fun _ => h hn, fun _ => h hk, fun _ => h hm, fun _ => h hcl⟩ c x o

/-- … and existing ones are exactly the ones that can be found, so that two NFTs, collections, marketplaces or clusters of a
reachable state can always be exchanged. -/
theorem C128_existing (hc : c.Ok) (hr : Reach c w) :
    (∀ n, w.nfts.get n ≠ none → n < w.nft.nextNft) ∧ (∀ k, w.nft.colls.get k ≠ none → k < w.nft.nextColl) ∧
      (∀ m, w.mkt.mkts.get m ≠ none → m < w.mkt.next) := by
  refine ⟨fun n h => ?_, fun k h => ?_, fun m h => (C17_ids hr m).1 h⟩
  · by_contra hn
    exact h ((hr.inv hc).fresh n (by omega))
  · by_contra hk
    exact h ((hr.coll hc).fresh k (by omega))

/-- What renumbering does to a state: whatever was found under a number is now found under the other, and names other things
by their other numbers.  Balances, owners, prices, blocks and fees are untouched. -/
theorem C128_reads (ρ : Num) (w : World) :
    (∀ n, (ρ.world w).nfts.get (ρ.n n) = (w.nfts.get n).map fun d => { d with coll := d.coll.map ρ.k }) ∧
    (∀ k, (ρ.world w).nft.colls.get (ρ.k k) = (w.nft.colls.get k).map fun d => { d with nfts := d.nfts.map ρ.n }) ∧
    (∀ m, (ρ.world w).mkt.mkts.get (ρ.m m) = (w.mkt.mkts.get m).map fun d => { d with colls := d.colls.map (List.map ρ.k) }) ∧
    (∀ n, (ρ.world w).mkt.sales.get (ρ.n n) = (w.mkt.sales.get n).map fun d => { d with mkt := ρ.m d.mkt }) ∧
    (∀ n, (ρ.world w).auc.auctions.get (ρ.n n) = (w.auc.auctions.get n).map fun d => { d with mkt := ρ.m d.mkt }) ∧
    (∀ n, (ρ.world w).tr.trans.get (ρ.n n) = w.tr.trans.get n) ∧
    (∀ k, (ρ.world w).br.nonces.get (ρ.chain k) = w.br.nonces.get k) ∧
    (∀ k t, (ρ.world w).br.votes.get (ρ.chain k, t) = w.br.votes.get (k, t)) ∧
    (∀ a, (ρ.world w).tee.opCluster.get a = (w.tee.opCluster.get a).map ρ.cl) ∧
    (ρ.world w).bal = w.bal ∧ (ρ.world w).now = w.now ∧ (ρ.world w).rew = w.rew ∧ (ρ.world w).auc.claims = w.auc.claims := by
  refine ⟨fun n => FMap.mapk_get ρ.n ρ.nInj .., fun k => FMap.mapk_get ρ.k ρ.kInj .., fun m => FMap.mapk_get ρ.m ρ.mInj ..,
    fun n => FMap.mapk_get ρ.n ρ.nInj .., fun n => FMap.mapk_get ρ.n ρ.nInj .., fun n => ?_, fun k => ?_, fun k t => ?_,
    fun a => FMap.mapv_get .., rfl, rfl, rfl, rfl⟩
  · exact (FMap.mapk_get ρ.n ρ.nInj ..).trans (by simp)
  · exact (FMap.mapk_get ρ.chain ρ.chainInj ..).trans (by simp)
  · exact (FMap.mapk_get ρ.chainTransfer ρ.chainTransfer_inj _ _ (k, t)).trans (by simp)

/-- two NFTs of user 1, the second one given to user 2 -/
abbrev Demo.twoNfts : List Op := [Demo.mint1, Demo.mint1, Demo.by_ 1 (.nft (.transferNft 1 2))]

/-- NFTs 0 and 1 exchange their numbers: 0 is now the one user 2 owns and can give away; a third one is still number 2. -/
example :
    let ρ := swapNums 0 1 0 0 0 0 0 0
    (0 < (Demo.at_ Demo.twoNfts).nft.nextNft ∧ 1 < (Demo.at_ Demo.twoNfts).nft.nextNft) ∧
      ((Demo.at_ Demo.twoNfts).nfts.get 0).map (·.owner) = some 1 ∧
      ((ρ.world (Demo.at_ Demo.twoNfts)).nfts.get 0).map (·.owner) = some 2 ∧
      (dispatch Demo.cfg (.nft (.transferNft 1 3)) (.signed 2) (Demo.at_ Demo.twoNfts)).isOk = true ∧
      (dispatch Demo.cfg (.nft (.transferNft 0 3)) (.signed 2) (ρ.world (Demo.at_ Demo.twoNfts))).isOk = true ∧
      ((step Demo.cfg (ρ.world (Demo.at_ Demo.twoNfts)) Demo.mint1).nfts.get 2).map (·.owner) = some 1 := by
  decide

/-- a renumbering of chains: 2 x + 1 instead of x -/
abbrev Demo.oddChains : Num where
  n := id
  k := id
  m := id
  cl := id
  slot := id
  chain x := 2 * x + 1
  nInj _ _ h := h
  kInj _ _ h := h
  mInj _ _ h := h
  clInj _ _ h := h
  slotInj _ _ h := h
  chainInj a b h := by
    have : 2 * (a : Nat) + 1 = 2 * b + 1 := h
    omega

/-- It keeps every number that is counted, in every state. -/
example (w : World) : Demo.oddChains.Keeps w := ⟨fun _ _ => rfl, fun _ _ => rfl, fun _ _ => rfl, fun _ _ => rfl⟩

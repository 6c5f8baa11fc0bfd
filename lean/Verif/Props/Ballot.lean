import Verif.Proofs.Ballot
import Verif.Props.Bridge
/-
The order in which accounts take part in a decision.
-/
open Spec

variable {c : Cfg} {w : World}

/-! ## C127 -/

/-- C127 (partial): for what several accounts decide together (relayers about a transfer, the listed accounts about a
transmission, the enclaves of a cluster about a secret or a capsule) neither the order in which they take part nor repeated
attempts nor attempts of accounts without a say matter: whatever the state, whenever the same accounts take part, the
outcome is the same in balances, NFTs, schedules and everything else, and the record shows as many participants, the same
end and the same approval.  Missing: enclaves of different clusters, see `C127_fails`. -/
theorem C127_partial (b : Ballot) {l l' : List AccountId} (h : ∀ a, a ∈ l ↔ a ∈ l') (hf : b.Fair w l) :
    b.others (b.held c w l) = b.others (b.held c w l') ∧ b.count (b.held c w l) = b.count (b.held c w l') := by
  cases b with
  | transfer k t => exact BrM.transfer_agree h
  | transmission n => exact TrM.transmission_agree h
  | secret n => exact NftM.SecretVote.agree h hf
  | capsule n => exact NftM.CapsuleVote.agree h hf

/-- C127 for a change of order alone. -/
theorem C127_order_partial (b : Ballot) {l l' : List AccountId} (h : l.Perm l') (hf : b.Fair w l) :
    b.others (b.held c w l) = b.others (b.held c w l') ∧ b.count (b.held c w l) = b.count (b.held c w l') :=
  C127_partial b (fun _ => h.mem_iff) hf

/-- two relayers are enough to approve a transfer: whoever votes first, the tokens are paid out once, and account 4 has no
vote -/
example : let w := Demo.at_ Demo.bridge
    let b := Ballot.transfer 1 Demo.t7
    (b.others (b.held Demo.cfg w [4, 1, 1, 2, 3]) = b.others (b.held Demo.cfg w [3, 2, 4, 1])) ∧
    (b.held Demo.cfg w [4, 1, 1, 2, 3]).bal.freeOf 7 = w.bal.freeOf 7 + 700 ∧
    (b.held Demo.cfg w [4, 1, 1]).bal.freeOf 7 = w.bal.freeOf 7 :=
  ⟨(C127_partial _ (by intro a; simp; omega) (by exact trivial)).1, by decide +kernel, by decide +kernel⟩

/-- the NFT 0 is to go to account 2 as soon as two of the accounts 3, 4 and 5 agree -/
abbrev Demo.awaited : World := Demo.at_ [Demo.mint1, Demo.by_ 1 (.tr (.set 0 2 (.onConsent [3, 4, 5] 2) .anytime))]

/-- it goes there, whichever of them agree first -/
example : let b := Ballot.transmission 0
    (b.others (b.held Demo.cfg Demo.awaited [3, 4, 5]) = b.others (b.held Demo.cfg Demo.awaited [5, 4, 3, 4])) ∧
    (((b.held Demo.cfg Demo.awaited [3, 4, 5]).nfts.get 0).map (·.owner)) = some 2 ∧
    (((b.held Demo.cfg Demo.awaited [4, 1, 2]).nfts.get 0).map (·.owner)) = some 1 :=
  ⟨(C127_partial _ (by intro a; simp; omega) (by exact trivial)).1, by decide +kernel, by decide +kernel⟩

/-- besides the enclaves 18 and 19 of cluster 0 there is the enclave 17 of cluster 1; NFT 0 is a secret and NFT 1 a capsule -/
abbrev Demo.twoClusters : List Op := Demo.enclaves ++
  [.call .root (.root (.tee (.createCluster .pub))), Demo.by_ 7 (.tee (.register 17 [1])),
   .call .root (.root (.tee (.assign 7 1 0))),
   Demo.by_ 1 (.nft (.createSecret [1] [2] ⟨5, by omega⟩ none false)),
   Demo.by_ 1 (.nft (.createCapsule [1] [2] ⟨5, by omega⟩ none false))]

theorem Demo.oneCluster : OneCluster (Demo.at_ Demo.twoClusters) [3, 18, 19] := by
  intro a ha b hb p q k k' h1 h2 h3 h4
  have e3 : (Demo.at_ Demo.twoClusters).tee.accOp.get 3 = none := by decide +kernel
  have e18 : (Demo.at_ Demo.twoClusters).tee.accOp.get 18 = some 8 := by decide +kernel
  have e19 : (Demo.at_ Demo.twoClusters).tee.accOp.get 19 = some 9 := by decide +kernel
  have f8 : (Demo.at_ Demo.twoClusters).tee.opCluster.get 8 = some 0 := by decide +kernel
  have f9 : (Demo.at_ Demo.twoClusters).tee.opCluster.get 9 = some 0 := by decide +kernel
  have key : ∀ a ∈ [3, 18, 19], ∀ p k, (Demo.at_ Demo.twoClusters).tee.accOp.get a = some p →
      (Demo.at_ Demo.twoClusters).tee.opCluster.get p = some k → k = 0 := by
    intro a ha p k h h'
    simp only [List.mem_cons, List.not_mem_nil, or_false] at ha
    rcases ha with rfl | rfl | rfl
    · rw [e3] at h; cases h
    · rw [e18] at h; cases h; rw [f8] at h'; cases h'; rfl
    · rw [e19] at h; cases h; rw [f9] at h'; cases h'; rfl
  rw [key a ha p k h1 h3, key b hb q k' h2 h4]

/-- the secret and the capsule are ready when both enclaves of cluster 0 have reported, whoever is first -/
example : let w := Demo.at_ Demo.twoClusters
    let b := Ballot.secret 0
    let b' := Ballot.capsule 1
    b.others (b.held Demo.cfg w [3, 18, 19]) = b.others (b.held Demo.cfg w [19, 19, 18, 3]) ∧
    b'.others (b'.held Demo.cfg w [3, 18, 19]) = b'.others (b'.held Demo.cfg w [19, 19, 18, 3]) ∧
    ((b.held Demo.cfg w [3, 18, 19]).nfts.get 0).map (·.st.syncSecret) = some false ∧
    ((b.held Demo.cfg w [19, 19]).nfts.get 0).map (·.st.syncSecret) = some true ∧
    ((b'.held Demo.cfg w [3, 18, 19]).nfts.get 1).map (·.st.syncCapsule) = some false ∧
    ((b'.held Demo.cfg w [3, 18]).nfts.get 1).map (·.st.syncCapsule) = some true :=
  ⟨(C127_partial _ (by intro a; simp; omega) (by exact Demo.oneCluster)).1, (C127_partial _ (by intro a; simp; omega) (by exact Demo.oneCluster)).1,
   by decide +kernel, by decide +kernel, by decide +kernel, by decide +kernel⟩

/-- C127 fails for enclaves of different clusters: the first shard settles the cluster.  If the enclave 17 comes second it is
turned down and the two enclaves of the other cluster finish; if it comes first, they are turned down and the secret, or the
capsule, stays unfinished. -/
theorem C127_fails : ∃ (c : Cfg) (w : World) (l l' : List AccountId), c.Ok ∧ Reach c w ∧ l.Perm l' ∧
    (((Ballot.secret 0).held c w l).nfts.get 0).map (·.st.syncSecret) = some false ∧
    (((Ballot.secret 0).held c w l').nfts.get 0).map (·.st.syncSecret) = some true ∧
    (((Ballot.capsule 1).held c w l).nfts.get 1).map (·.st.syncCapsule) = some false ∧
    (((Ballot.capsule 1).held c w l').nfts.get 1).map (·.st.syncCapsule) = some true :=
  ⟨Demo.cfg, Demo.at_ Demo.twoClusters, [18, 17, 19], [17, 18, 19], Demo.cfg_ok, Demo.reach _ (by decide), by decide,
   by decide +kernel, by decide +kernel, by decide +kernel, by decide +kernel⟩

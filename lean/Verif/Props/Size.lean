import Verif.Props.Govern
import Verif.Props.Nft
import Verif.Props.Rent
import Verif.Props.Auction
import Verif.Props.Transmission
import Verif.Props.Tee
import Verif.Props.Bridge
/-
C101: every list that grows by calls stays within its configured limit.
-/
variable {c : Cfg} {w w' : World} {a : AccountId}

/-- Every list stored by the pallets that calls add to one by one is at most as long as configured. -/
structure Spec.Fits (c : Cfg) (w : World) : Prop where
  collection : ∀ k x, w.nft.colls.get k = some x → x.nfts.length ≤ c.collLimit ∧ ∀ l, x.limit = some l → x.nfts.length ≤ l
  shards : ∀ n l, w.nft.secretShards.get n = some l ∨ w.nft.capsuleShards.get n = some l → l.length < c.shards
  bids : ∀ n x, w.auc.auctions.get n = some x → x.bids.length ≤ c.bidLimit
  auctions : w.auc.deadlines.length ≤ c.aucLimit
  contracts : w.rent.availQ.length + w.rent.fixedQ.length + w.rent.subQ.length ≤ c.rentLimit
  offers : ∀ n l, w.rent.offers.get n = some l → l.length ≤ c.rentAccounts
  transmissions : w.tr.queue.length ≤ c.trLimit
  consents : ∀ n l, w.tr.consents.get n = some l → l.length < c.trConsents
  cluster : ∀ k x, w.tee.clusters.get k = some x → x.enclaves.length ≤ c.clusterSize
  leaving : w.tee.unregs.length ≤ c.teeList
  servers : w.tee.servers.length ≤ c.teeList
  reports : ∀ k l, w.tee.reports.get k = some l → l.length ≤ c.teeList
  votes : ∀ k p, w.br.votes.get k = some p → p.votes.length ≤ c.relayerLimit

namespace Size

theorem offers (hc : c.Ok) (hr : Reach c w) :
    ∀ n l, w.rent.offers.get n = some l → l.length ≤ c.rentAccounts := by
  induction hr with
  | init h => intro n l hl; simp [h.rent.2.2.2.2] at hl
  | @step w o hr ho ih =>
    have hs := step_case w o ho
    have hd := step_rent_case hc hr o ho
    generalize _root_.step c w o = w' at hs hd ⊢
    rcases hd with ⟨a, x, rfl, _, hd⟩ | ⟨rfl, hd⟩ | e
    · cases hd with
      | create hx =>
        obtain ⟨d, b, q, _, _, _, _, _, _, _, _, _, _, _, _, _, _, _, _, _, _, rfl⟩ := RentM.create_ok hx
        exact ih
      | cancel =>
        intro m l hl; simp only [FMap.get_erase] at hl; split at hl
        · simp at hl
        · exact ih m l hl
      | revoke hx =>
        obtain ⟨k, r, d, b0, b1, b2, hk, hr, hp, hcr, hd, _, _, _, _, rfl⟩ := RentM.revoke_ok hx
        cases k.duration <;> exact ih
      | start _ _ hx =>
        obtain ⟨F, S, e⟩ := hx.rent
        intro m l hl; rw [e] at hl; simp only [FMap.get_erase] at hl; split at hl
        · simp at hl
        · exact ih m l hl
      | @makeOffer n k =>
        intro m l hl
        simp only [FMap.get_insert] at hl; split at hl
        · rename_i e; subst e; simp at hl; subst hl
          cases hs with
          | rent x _ h =>
            simp only [RentM.call, RentM.makeOffer] at h; inv_ok at h
            obtain ⟨k', h0, hk, _, h1, h2, h3, h4, _, h5, _⟩ := h
            simp; omega
          | quiet _ _ h =>
            have := congrArg (fun r : RentSt => r.offers.get m) h.rent
            simp only [FMap.get_insert_self] at this
            exact ih m _ this.symm
        · exact ih m l hl
      | @retractOffer n l0 h1 =>
        intro m l hl
        simp only [FMap.get_insert] at hl; split at hl
        · simp at hl; subst hl
          exact Nat.le_trans (List.length_erase_le) (ih _ _ h1)
        · exact ih m l hl
      | changeTerms =>
        intro m l hl
        dsimp only at hl
        split at hl
        · exact ih m l hl
        · simp only [FMap.get_erase] at hl; split at hl
          · simp at hl
          · exact ih m l hl
      | acceptTerms => exact ih
    · clear hs
      induction hd with
      | refl => exact ih
      | tail _ h i2 => obtain ⟨_, _, h⟩ := h; cases h <;> exact i2
    · rw [e]; exact ih

theorem putReport_length {r : Report} {l l' : List Report} (h : TeeM.putReport r l = some l') : l'.length = l.length := by
  induction l generalizing l' with
  | nil => simp [TeeM.putReport] at h
  | cons x t ih =>
    simp only [TeeM.putReport] at h
    split at h
    · simp at h; subst h; rfl
    · simp only [Option.map_eq_some_iff] at h
      obtain ⟨y, hy, rfl⟩ := h
      simp [ih hy]

theorem addReport_length {r : Report} {l l' : List Report} (h : TeeM.addReport c l r = .ok l') (hl : l.length ≤ c.teeList) :
    l'.length ≤ c.teeList := by
  unfold TeeM.addReport at h
  split at h
  · rename_i h1; inv_ok at h; subst h; rw [putReport_length h1]; exact hl
  · inv_ok at h; obtain ⟨h1, rfl⟩ := h; simp; omega

/-- lists of the tee pallet -/
structure TFits (c : Cfg) (t : TeeSt) : Prop where
  leaving : t.unregs.length ≤ c.teeList
  reports : ∀ k l, t.reports.get k = some l → l.length ≤ c.teeList

theorem TFits.congr {t t' : TeeSt} (h : TFits c t) (h1 : t'.unregs = t.unregs) (h2 : t'.reports = t.reports) : TFits c t' :=
  ⟨h1 ▸ h.1, h2 ▸ h.2⟩

theorem unassign_fits {op} (h : TeeM.unassign w op = .ok w') (hi : TFits c w.tee) : TFits c w'.tee := by
  simp only [TeeM.unassign] at h; inv_ok at h
  obtain ⟨_, _, _, _, _, _, _, rfl⟩ := h
  exact ⟨Nat.le_trans (swapRemoveBy_length _ _) hi.1, hi.2⟩

theorem root_fits {r : TeeM.RootCall} (h : TeeM.root c w r = .ok w') (hi : TFits c w.tee) : TFits c w'.tee := by
  cases r <;> simp only [TeeM.root] at h
  case approveUnregister =>
    simp only [TeeM.approveUnregister] at h; inv_ok at h
    exact unassign_fits h.2 hi
  case forceRemove =>
    simp only [TeeM.forceRemove] at h; inv_ok at h
    obtain ⟨w2, s, h5, _, rfl⟩ := h
    exact (unassign_fits h5 hi).congr rfl rfl
  case forceUpdate op ad uri =>
    cases ad <;> simp only [TeeM.forceUpdate, TeeM.forceAddr] at h <;> inv_ok at h
    · obtain ⟨_, y, _, _, h5, _, rfl⟩ := h; subst h5; exact hi.congr rfl rfl
    · obtain ⟨_, y, _, _, _, _, h5, _, rfl⟩ := h
      subst h5
      simp only
      split <;> exact hi.congr rfl rfl
  case approveUpdate op =>
    simp only [TeeM.approveUpdate, TeeM.approveAddr] at h; inv_ok at h
    obtain ⟨_, _, y, _, _, _, _, h5, rfl⟩ := h
    split at h5 <;> inv_ok at h5
    · subst h5; exact hi.congr rfl rfl
    · obtain ⟨_, rfl⟩ := h5; exact hi.congr rfl rfl
  all_goals
    simp only [TeeM.assign, TeeM.dropRegistration, TeeM.dropUpdate, TeeM.createCluster, TeeM.updateCluster,
      TeeM.removeCluster, TeeM.setWeights, TeeM.setStakingAmount, TeeM.setPool, TeeM.setAssignedEra, TeeM.registerServer,
      TeeM.unregisterServer, TeeM.setServerType] at h
    frame_auto at h
    exact hi.congr rfl rfl

theorem tee (hr : Reach c w) : TFits c w.tee := by
  induction hr with
  | init h =>
    have := h.tee
    exact ⟨by simp [this.2.1], fun k l hl => by simp [this.2.2.2.2.2.2.2.2.2.2.1] at hl⟩
  | @step w o hr ho ih =>
    have hs := step_tee (c := c) w o ho
    generalize _root_.step c w o = w' at hs
    cases hs with
    | quiet h => rw [h]; exact ih
    | hook _ h =>
      subst h
      rcases TeeM.hook_eq (c := c) w with h | ⟨_, _, _, h⟩ <;> rw [h]
      · exact ih
      · refine ⟨ih.1, fun k l hl => ?_⟩
        simp only [TeeM.clearEra, FMap.get_filterKeys] at hl
        split at hl
        · exact ih.2 k l hl
        · simp at hl
    | root h1 h2 h3 h4 h5 h6 =>
      subst h6
      exact (root_fits h4 ih).congr rfl rfl
    | call h1 h2 h3 =>
      rename_i x
      cases x <;> simp only [TeeM.call] at h3
      case unregister =>
        simp only [TeeM.unregister, TeeM.dropRegistration, TeeM.unregisterAssigned] at h3
        split at h3
        · inv_ok at h3
          obtain ⟨_, _, h4, _, rfl⟩ := h3
          exact ⟨by simp; omega, ih.2⟩
        · frame_auto at h3; exact ih.congr rfl rfl
      case submitReport op r =>
        simp only [TeeM.submitReport] at h3; inv_ok at h3
        obtain ⟨_, _, _, l', _, _, _, _, h4, rfl⟩ := h3
        refine ⟨ih.1, fun k l hl => ?_⟩
        simp only [World.ev, FMap.get_insert] at hl
        split at hl
        · simp at hl; subst hl
          refine addReport_length h4 ?_
          cases e : w.tee.reports.get _ with
          | none => simp
          | some y => exact ih.2 _ _ e
        · exact ih.2 k l hl
      all_goals
        simp only [TeeM.register, TeeM.withdraw, TeeM.claim, TeeM.update, TeeM.dropUpdate,
          TeeM.bondExtra, TeeM.refundExcess] at h3
        frame_auto at h3
        exact ih.congr rfl rfl

theorem votes (hr : Reach c w) : ∀ k p, w.br.votes.get k = some p → p.votes.length ≤ c.relayerLimit := by
  induction hr with
  | init h => intro k p hp; simp [h.br.2] at hp
  | @step w o hr ho ih =>
    have hs := step_br w o ho
    generalize _root_.step c w o = w' at hs ⊢
    cases hs with
    | quiet e he => intro k p hp; rw [e] at hp; exact ih k p hp
    | ext hg hx h e he => intro k p hp; rw [e, BrM.ext_votes h] at hp; exact ih k p hp
    | deposit h1 hn h2 e he => intro k p hp; rw [e] at hp; exact ih k p hp
    | @vote a k t x _ h1 h2 h3 h4 e he =>
      intro j p hp
      rw [e] at hp
      simp only [FMap.get_insert] at hp
      split at hp
      · simp at hp; subst hp
        cases hq : w.br.votes.get (k, t) with
        | none =>
          rw [hq] at h3
          simp only [BrM.vote] at h3; inv_ok at h3
          obtain ⟨h5, rfl⟩ := h3
          simp only [BrM.complete]; split <;> simpa using h5
        | some q =>
          rw [hq] at h3
          simp only [BrM.vote] at h3; inv_ok at h3
          obtain ⟨_, _, _, h5, rfl⟩ := h3
          simp only [BrM.complete]; split <;> simp <;> omega
      · exact ih j p hp

end Size

/-- C101: every list is within its limit at all times. -/
theorem C101 (hc : c.Ok) (hr : Reach c w) : Spec.Fits c w where
  collection k x h := (C08_coll hc hr h).2.2
  shards n l h := h.elim (fun h => ((C11_shards hc hr).1 h).1.2.1) fun h => ((C11_shards hc hr).2 h).1.2.1
  bids n x h := (C19 hc hr h).2.2.1
  auctions := (C26_sorted hc hr).2.2.1
  contracts := (C30 hc hr).2.2.2.2.2
  offers := Size.offers hc hr
  transmissions := (C42_sorted hc hr).2.2
  consents n l h := by
    obtain ⟨x, y, h1, h2, _, _, h3⟩ := (hr.inv hc).tr.cons n l h
    have := (hr.inv hc).tr.proto n x y h1 h2
    omega
  cluster k x h := (C43_cluster hr h).1
  leaving := (Size.tee hr).1
  servers := (C83_servers_distinct hr).2
  reports := (Size.tee hr).2
  votes := Size.votes hr

-- limits are reached: two bids and a third that takes the place of the lowest, a full cluster, a collection of two
example : let w := Demo.at_ ([Demo.by_ 1 (.nft (.createColl [1] (some 2))),
      Demo.by_ 1 (.nft (.createNft [1] ⟨0, by omega⟩ (some 0) false)),
      Demo.by_ 1 (.nft (.createNft [1] ⟨0, by omega⟩ (some 0) false)),
      Demo.by_ 1 (.nft (.createNft [1] ⟨0, by omega⟩ (some 0) false)),
      Demo.by_ 1 (.mkt (.create .pub)), Demo.by_ 1 (.auc (.create 0 0 0 10 50 none)),
      Demo.by_ 2 (.auc (.addBid 0 60)), Demo.by_ 3 (.auc (.addBid 0 70)), Demo.by_ 4 (.auc (.addBid 0 80))])
    Reach Demo.cfg w ∧ (w.nft.colls.get 0).map (·.nfts) = some [0, 1] ∧ Demo.cfg.bidLimit = 2 ∧
      (w.auc.auctions.get 0).map (·.bids) = some [(3, 70), (4, 80)] ∧ w.auc.claims.get 2 = some 60 :=
  ⟨Demo.reach _ (by decide), by decide, rfl, by decide, by decide⟩

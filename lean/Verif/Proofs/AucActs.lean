import Verif.Proofs.MktStep
/-
Operations of the auction pallet, one constructor for each way they can succeed.
-/
variable {c : Cfg} {w w' : World} {a : AccountId}

namespace AucM

/-- the successful calls -/
inductive Act (c : Cfg) (w : World) (a : AccountId) : Call → World → Prop where
  | create {n : NFTId} {m : MktId} {s e : Block} {p : Balance} {bi : Option Balance} {d : NFTData}
      {k : Mkt} {q : Queue} :
      w.now ≤ s → s < e → e - s ≤ c.maxDur → c.minDur ≤ e - s → s - w.now ≤ c.maxDelay →
      (∀ x ∈ bi, p < x) → w.nfts.get n = some d → d.owner = a → d.st.listed = false →
      w.mkt.mkts.get m = some k → MktM.allowedToList k a d.coll = true →
      MktM.covers p k.commission = true → Queue.insert c.aucLimit w.auc.deadlines n e = some q →
      Act c w a (.create n m s e p bi) { w with
        nfts := w.nfts.insert n { d with st := { d.st with listed := true } }
        auc := { w.auc with
          comm := w.auc.comm.insert n k.commission
          deadlines := q
          auctions := w.auc.auctions.insert n {
            creator := a, start := s, fin := e, startPrice := p, buyIt := bi, bids := [], mkt := m
            extended := false } } }
  | cancel {n : NFTId} {d : NFTData} {x : Auction} :
      w.nfts.get n = some d → w.auc.auctions.get n = some x → x.creator = a → w.now < x.start →
      Act c w a (.cancel n) { w with
        nfts := w.nfts.insert n { d with st := { d.st with listed := false } }
        auc := { w.auc with
          claims := addClaims w.auc.claims x.bids
          auctions := w.auc.auctions.erase n
          deadlines := w.auc.deadlines.remove n } }
  | end_ {n : NFTId} {d : NFTData} {x : Auction} {top : AccountId × Balance} {b : Bal} :
      w.nfts.get n = some d → w.auc.auctions.get n = some x → x.creator = a → x.extended = true →
      x.bids.getLast? = some top → payForNft c w n c.aucPot top.2 d x = (b, .ok ()) →
      Act c w a (.end_ n) { w with
        bal := b
        nfts := w.nfts.insert n { d with owner := top.1, st := { d.st with listed := false } }
        auc := { w.auc with
          claims := addClaims w.auc.claims x.bids.dropLast
          auctions := w.auc.auctions.erase n
          deadlines := w.auc.deadlines.remove n }
        evs := .auctionCompleted n (some top.1) (some top.2) :: w.evs }
  | addBid {n : NFTId} {v : Balance} {x : Auction} {b : Bal} {dr : Option (AccountId × Balance)}
      {l : List (AccountId × Balance)} {q : Queue} :
      w.auc.auctions.get n = some x → x.creator ≠ a → x.start ≤ w.now → c.ed < v →
      beats x v = true →
      w.bal.transfer c.ed a c.aucPot (v - (findBid a x.bids).getD 0) .keepAlive = .ok b →
      insertBid c (removeBid a x.bids) a v = .ok (dr, l) →
      updateDeadline c w.auc.deadlines n (extend c { x with bids := l } w.now).2 = .ok q →
      Act c w a (.addBid n v) { w with
        bal := b
        auc := { w.auc with
          auctions := w.auc.auctions.insert n (extend c { x with bids := l } w.now).1
          claims := addClaimOpt w.auc.claims dr
          deadlines := q } }
  | removeBid {n : NFTId} {x : Auction} {v : Balance} {b : Bal} :
      w.auc.auctions.get n = some x → c.ending < x.fin - w.now → findBid a x.bids = some v →
      w.bal.transfer c.ed c.aucPot a v .allowDeath = .ok b →
      Act c w a (.removeBid n) { w with
        bal := b
        auc := { w.auc with
          auctions := w.auc.auctions.insert n { x with bids := AucM.removeBid a x.bids } } }
  | buyItNow {n : NFTId} {p : Balance} {d : NFTData} {x : Auction} {b : Bal} :
      w.nfts.get n = some d → w.auc.auctions.get n = some x → x.buyIt = some p → x.creator ≠ a →
      x.start ≤ w.now → (∀ h ∈ x.bids.getLast?, h.2 < p) →
      payForNft c w n a p d x = (b, .ok ()) →
      Act c w a (.buyItNow n p) { w with
        bal := b
        nfts := w.nfts.insert n { d with owner := a, st := { d.st with listed := false } }
        auc := { w.auc with
          claims := addClaims w.auc.claims x.bids
          auctions := w.auc.auctions.erase n
          deadlines := w.auc.deadlines.remove n }
        evs := .auctionCompleted n (some a) (some p) :: w.evs }
  | claim {v : Balance} {b : Bal} :
      w.auc.claims.get a = some v → w.bal.transfer c.ed c.aucPot a v .allowDeath = .ok b →
      Act c w a .claim { w with
        bal := b
        auc := { w.auc with claims := w.auc.claims.erase a } }

theorem call_act {x : Call} (h : call c w a x = .ok w') : Act c w a x w' := by
  cases x <;> simp only [call] at h
  case create =>
    simp only [create] at h; inv_ok at h
    obtain ⟨d, k, q, h1, h2, h3, h4, h5, h6, hd, h7, h8, _, _, _, _, _, _, hk, h9, h10, hq, rfl⟩ := h
    exact .create h1 h2 h3 h4 h5 h6 hd h7 h8 hk h9 h10 hq
  case cancel =>
    simp only [cancel] at h; inv_ok at h
    obtain ⟨d, x, hd, hx, h1, h2, rfl⟩ := h
    exact .cancel hd hx h1 (by omega)
  case end_ =>
    simp only [end_] at h; inv_ok at h
    obtain ⟨d, x, top, b, hd, hx, h1, h2, h3, h4, rfl⟩ := h
    exact .end_ hd hx h1 h2 h3 (payForNftExt_ok h4)
  case addBid =>
    simp only [addBid] at h; inv_ok at h
    obtain ⟨x, b, y, q, hx, h1, h2, h3, h4, h5, h6, h7, rfl⟩ := h
    exact .addBid (dr := y.1) (l := y.2) hx h1 h2 h3 h4 h5 h6 h7
  case removeBid =>
    simp only [removeBidCall] at h; inv_ok at h
    obtain ⟨x, v, b, hx, h1, h2, h3, rfl⟩ := h
    exact .removeBid hx h1 h2 h3
  case buyItNow =>
    simp only [buyItNow] at h; inv_ok at h
    obtain ⟨d, x, p, b, hd, hx, h1, rfl, h2, h3, h4, h5, rfl⟩ := h
    exact .buyItNow hd hx h1 h2 h3 h4 (payForNftExt_ok h5)
  case claim =>
    simp only [claim] at h; inv_ok at h
    obtain ⟨v, b, h1, h2, rfl⟩ := h
    exact .claim h1 h2

/-- The hook takes the first entry of the schedule. -/
inductive Pop (c : Cfg) (w : World) : World → Prop where
  | won {n : NFTId} {e : Block} {t : Queue} {x : Auction} {d : NFTData}
      {top : AccountId × Balance} {b : Bal} :
      w.auc.deadlines = (n, e) :: t → e ≤ w.now → w.auc.auctions.get n = some x →
      w.nfts.get n = some d → x.bids.getLast? = some top →
      payForNft c w n c.aucPot top.2 d x = (b, .ok ()) →
      Pop c w { w with
        bal := b
        nfts := w.nfts.insert n { d with owner := top.1, st := { d.st with listed := false } }
        auc := { w.auc with
          claims := addClaims w.auc.claims x.bids.dropLast
          auctions := w.auc.auctions.erase n
          deadlines := t }
        evs := .auctionCompleted n (some top.1) (some top.2) :: w.evs }
  | noBid {n : NFTId} {e : Block} {t : Queue} {x : Auction} {d : NFTData} :
      w.auc.deadlines = (n, e) :: t → e ≤ w.now → w.auc.auctions.get n = some x →
      w.nfts.get n = some d → x.bids = [] →
      Pop c w { w with
        nfts := w.nfts.insert n { d with st := { d.st with listed := false } }
        auc := { w.auc with auctions := w.auc.auctions.erase n, deadlines := t }
        evs := .auctionCompleted n none none :: w.evs }
  | missed {n : NFTId} {e : Block} {t : Queue} {x : Auction} {d : NFTData}
      {top : AccountId × Balance} {b : Bal} {err : Err} :
      w.auc.deadlines = (n, e) :: t → e ≤ w.now → w.auc.auctions.get n = some x →
      w.nfts.get n = some d → x.bids.getLast? = some top →
      payForNft c w n c.aucPot top.2 d x = (b, .error err) →
      Pop c w { w with bal := b, auc := { w.auc with deadlines := t } }
  | stray {n : NFTId} {e : Block} {t : Queue} :
      w.auc.deadlines = (n, e) :: t → e ≤ w.now →
      (w.auc.auctions.get n = none ∨ w.nfts.get n = none) →
      Pop c w { w with auc := { w.auc with deadlines := t } }

/-- the world as seen during the hook, with the entries already taken removed -/
def withDl (w : World) (q : Queue) : World := { w with auc := { w.auc with deadlines := q } }

theorem payForNft_dl {q n s v d x} :
    payForNft c (withDl w q) n s v d x = payForNft c w n s v d x := rfl

theorem settleOne_pop {n e t} (he : e ≤ w.now) :
    Pop c (withDl w ((n, e) :: t)) (withDl (settleOne c w n).1 t) := by
  unfold settleOne
  split
  · rename_i h
    exact .stray rfl he (Or.inl h)
  · rename_i x hx
    split
    · rename_i h
      exact .stray rfl he (Or.inr h)
    · rename_i d hd
      split
      · rename_i top htop
        split
        · rename_i b err hp
          exact .missed rfl he hx hd htop (payForNft_dl.trans hp)
        · rename_i b hp
          exact .won rfl he hx hd htop (payForNft_dl.trans hp)
      · rename_i hn
        exact .noBid rfl he hx hd (by simpa using hn)

theorem hookLoop_pops (q : Queue) (w : World) (i : Nat) :
    Relation.ReflTransGen (Pop c) (withDl w q)
      (withDl (hookLoop c w q i).1 (hookLoop c w q i).2) := by
  induction q generalizing w i with
  | nil => exact .refl
  | cons x t ih =>
    obtain ⟨n, e⟩ := x
    simp only [hookLoop]
    split
    · rename_i he
      have h := settleOne_pop (c := c) (t := t) (n := n) he
      split
      · split
        · exact .single h
        · exact .head h (ih _ _)
      · exact .head h (ih _ _)
    · exact .refl

theorem hook_pops (w : World) : Relation.ReflTransGen (Pop c) w (hook c w) :=
  hookLoop_pops (c := c) w.auc.deadlines w 0

end AucM

/-- Where a change of the auction pallet's records comes from. -/
theorem step_auc_case (w : World) (o : Op) (ho : o.Ok c) :
    (∃ a x, o = .call (.signed a) (.auc x) ∧ ¬ c.pot a ∧ AucM.Act c w a x (step c w o)) ∨
    (o = .hookAuc ∧ Relation.ReflTransGen (AucM.Pop c) w (step c w o)) ∨
    (step c w o).auc = w.auc := by
  generalize hw' : step c w o = w'
  have key := step_case w o ho
  rw [hw'] at key
  cases key with
  | auc x ha h => exact Or.inl ⟨_, x, rfl, ha, AucM.call_act h⟩
  | hookAuc => exact Or.inr (Or.inl ⟨rfl, AucM.hook_pops w⟩)
  | mkt x ha h =>
    have e := MktM.call_frame h
    right; right; rw [e]
  | nft x ha h =>
    have e := NftM.call_frame h
    right; right; rw [e]
  | rent x ha h =>
    have e := RentM.call_frame h
    right; right; rw [e]
  | tr x ha h =>
    have e := TrM.call_frame h
    right; right; rw [e]
  | hookRent =>
    have e := RentM.hook_frame (c := c) w
    right; right; rw [e]
  | hookTr =>
    have e := TrM.hook_frame (c := c) w
    right; right; rw [e]
  | quiet _ _ hq => exact Or.inr (Or.inr hq.auc)

import Verif.Proofs.ReasonBase
import Verif.Proofs.AcceptMkt
/-
Lemmas for C117: errors of the marketplace and auction pallets.
-/
variable {c : Cfg} {w w' : World} {a : AccountId} {s : String}
set_option maxRecDepth 10000
open Spec Spec.Why Spec.Accept

namespace MktM

theorem covers_none {p : Balance} {f : Option CompoundFee} (h : covers p f = false) : ∃ x, f = some (.flat x) ∧ p < x := by
  rcases f with _ | ⟨x⟩ | x
  · cases h
  · exact ⟨x, rfl, by simpa [covers] using h⟩
  · cases h

theorem admits_none {m : Mkt} {k : Option CollId} (h : allowedToList m a k = false) : ¬ Refuse.Admits m a k := by
  rw [← admits_iff, h]; simp

theorem reason {x : Call} (hc : c.Ok) (hr : Reach c w) (h : call c w a x = .error (.e s)) : Reason c w a (.mkt x) s := by
  cases x <;> simp only [call] at h
  case create k =>
    simp only [create] at h; inv_err at h
    exact .pay (payFee_err h)
  case setOwner m r =>
    simp only [setOwner] at h; inv_err at h
    each <;> subst_vars
    · exact .mkt .toSelf
    · exact .mkt (.none1 (by assumption))
    · exact .mkt (.owner1 ⟨_, by assumption, by assumption⟩)
  case setKind m r =>
    simp only [setKind] at h; inv_err at h
    each <;> subst_vars
    · exact .mkt (.none2 (by assumption))
    · exact .mkt (.owner2 ⟨_, by assumption, by assumption⟩)
  case setConfig m f l x o y =>
    simp only [setConfig] at h; inv_err at h
    each <;> subst_vars
    · exact .mkt (.none3 (by assumption))
    · exact .mkt (.owner3 ⟨_, by assumption, by assumption⟩)
  case list n m p =>
    simp only [list] at h; inv_err at h
    each <;> subst_vars <;> try why
    · exact .bound rfl (by constructor) ⟨_, by assumption, by assumption, by assumption⟩
    · exact .mkt (.none4 (by assumption))
    · exact .mkt (.admit (by assumption) ⟨_, by assumption, admits_none (by assumption)⟩)
    · exact .mkt (.cover ⟨_, by assumption, covers_none (by assumption)⟩)
    · rename_i k hk _ _ h
      refine .pay ?_
      simp only [dues, hk, Option.elim_some, charge_eq]
      exact pays_err h
  case unlist n =>
    simp only [unlist] at h; inv_err at h
    each <;> subst_vars <;> try why
    exact .mkt (.noSale1 (by assumption))
  case buy n p =>
    simp only [buy] at h; inv_err at h
    rcases h with ⟨hd, rfl⟩ | ⟨d, hd, ⟨hs, rfl⟩ | ⟨s', hs, h⟩⟩
    · exact .noNft rfl hd
    · exact .mkt (.noSale2 hs)
    · have g := (hr.inv hc).good n
      obtain ⟨q1, q2⟩ := C15_commission hr hs
      rw [Spec.commission_eq] at q1
      rcases h with ⟨hk, _⟩ | ⟨k, hk, ⟨h1, rfl⟩ | ⟨h1, ⟨h2, rfl⟩ | ⟨rfl, ⟨h3, rfl⟩ | ⟨h3, h⟩⟩⟩⟩
      · exact absurd hk q2
      · exact .mkt (.own ⟨s', hs, h1⟩ ⟨d, hd, by rw [← h1]; exact ((g.nft d hd).seller s' hs).symm⟩)
      · exact .mkt (.price ⟨s', hs, h2⟩)
      · exact .mkt (.funds (by omega))
      · refine .pay ?_
        simp only [dues, hd, hs, hk, Option.elim_some, saleOf, List.map_cons, List.map_nil, charge_eq]
        rcases h with h | ⟨b1, t1, ⟨h, _⟩ | ⟨_, h | ⟨b2, t2, ⟨h, _⟩ | ⟨_, h⟩⟩⟩⟩
        · exact pays_err h
        · exact absurd q1 h
        · exact pays_next t1 (pays_err h)
        · exact absurd (Permill.mul_le _ _) h
        · exact pays_next t1 (pays_next t2 (pays_err h))

end MktM

namespace AucM

theorem seq_err {src : AccountId} {l : Live} (t : List (AccountId × Balance)) : ∀ (b b' : Bal),
    paySeq c b src l t = (b', .error (.e s)) →
      Unpaid c.ed (purse b) (t.map fun z => ⟨src, some z.1, z.2, l = .allowDeath⟩) s := by
  induction t with
  | nil => intro b b' h; simp [paySeq] at h
  | cons z t ih =>
    intro b b' h
    rw [List.map_cons]
    obtain ⟨d, v⟩ := z
    simp only [paySeq] at h
    cases h1 : b.transfer c.ed src d v l with
    | error e =>
      rw [h1] at h
      simp only [Prod.mk.injEq, Except.error.injEq] at h
      obtain ⟨rfl, rfl⟩ := h
      exact .inl (transfer_err h1)
    | ok b1 =>
      rw [h1] at h
      exact .inr ⟨transfer_can.1 ⟨_, h1⟩, transfer_after h1 ▸ ih b1 b' h⟩

theorem ext_err {src : AccountId} {n : NFTId} {d : NFTData} {x : Auction} {v : Balance} {pay : AccountId → Balance → Due}
    (hx : w.auc.auctions.get n = some x) (hd : w.nfts.get n = some d) (hm : w.mkt.mkts.get x.mkt ≠ none)
    (hf : w.auc.comm.get n ≠ none)
    (hpay : ∀ y v, pay y v = ⟨src, some y, v, (if src = c.aucPot then Live.allowDeath else .keepAlive) = .allowDeath⟩)
    (h : payForNftExt c w n src v d x = .error (.e s)) : Unpaid c.ed (purse w.bal) (auctionDues w n v pay) s := by
  cases hm' : w.mkt.mkts.get x.mkt with
  | none => exact absurd hm' hm
  | some m =>
    cases hf' : w.auc.comm.get n with
    | none => exact absurd hf' hf
    | some f =>
      have h2 : auctionDues w n v pay = [(m.owner, (cuts v f d.royalty).1), (d.creator, (cuts v f d.royalty).2.1),
          (x.creator, (cuts v f d.royalty).2.2)].map fun z =>
            ⟨src, some z.1, z.2, (if src = c.aucPot then Live.allowDeath else .keepAlive) = .allowDeath⟩ := by
        simp [auctionDues, hx, hd, hf', hm', saleOf, cuts, charge_eq, hpay]
      rw [h2]
      unfold payForNftExt payForNft at h
      simp only [hm', hf'] at h
      split at h
      · cases h
      · rename_i b e he
        cases h
        exact seq_err _ _ _ he

theorem find_none {l : List (AccountId × Balance)} (h : findBid a l = none) : ∀ y ∈ l, y.1 ≠ a := by
  rintro ⟨_, v⟩ hy rfl
  obtain ⟨u, hu⟩ := find_some hy
  rw [h] at hu; cases hu

theorem beats_none {x : Auction} {v : Balance} (h : beats x v = false) :
    (x.bids = [] ∧ v ≤ x.startPrice) ∨ (x.bids ≠ [] ∧ ∃ y ∈ x.bids, v ≤ y.2) := by
  unfold beats at h
  split at h
  · rename_i y hy
    have := List.mem_of_getLast? hy
    exact .inr ⟨(by rintro e; rw [e] at this; cases this), y, this, by simpa using h⟩
  · rename_i hy
    exact .inl ⟨by simpa using hy, by simpa using h⟩

theorem reason {x : Call} (hc : c.Ok) (hr : Reach c w) (ha : ¬ c.pot a) (h : call c w a x = .error (.e s)) :
    Reason c w a (.auc x) s := by
  have hi := hr.auc hc
  have some_comm : ∀ {n x}, w.auc.auctions.get n = some x → w.auc.comm.get n ≠ none := by
    intro n x hx
    obtain ⟨f, hf, _⟩ := (hi.ok n x hx).comm; rw [hf]; simp
  cases x <;> simp only [call] at h
  case create n m s e p b =>
    simp only [create] at h; inv_err at h
    each <;> subst_vars <;> try why
    · exact .auc (.past (by omega))
    · exact .auc (.order (by omega))
    · exact .auc (.long (by omega))
    · exact .auc (.short (by omega))
    · exact .auc (.far (by omega))
    · rename_i h
      cases b with
      | none => simp at h
      | some b => exact .auc (.buyIt (by simpa using h))
    · exact .bound rfl (by constructor) ⟨_, by assumption, by assumption, by assumption⟩
    · exact .auc (.noMarket (by assumption))
    · exact .auc (.admit (by assumption) ⟨_, by assumption, MktM.admits_none (by assumption)⟩)
    · exact .auc (.cover ⟨_, by assumption, MktM.covers_none (by assumption)⟩)
    · rename_i h _
      refine .auc (.limit ?_)
      unfold Queue.insert at h
      split at h
      · cases h
      · omega
  case cancel n =>
    simp only [cancel] at h; inv_err at h
    each <;> subst_vars <;> try why
    · exact .auc (.none1 (by assumption))
    · exact .auc (.creator1 ⟨_, by assumption, by assumption⟩)
    · exact .auc (.begun ⟨_, by assumption, by assumption⟩)
  case end_ n =>
    simp only [end_] at h; inv_err at h
    each <;> subst_vars <;> try why
    · exact .auc (.none2 (by assumption))
    · exact .auc (.creator2 ⟨_, by assumption, by assumption⟩)
    · exact .auc (.notExtended ⟨_, by assumption, by assumption⟩)
    · rename_i h
      exact .auc (.noBids ⟨_, by assumption, by simpa using h⟩)
    · rename_i d hd x hx he top ht h
      refine .pay ?_
      simp only [dues, hx, ht, Option.elim_some]
      exact ext_err (c := c) (src := c.aucPot) hx hd (hi.ok n x hx).mkt (some_comm hx) (by intro y v; simp [paysAll]) h
  case addBid n v =>
    simp only [addBid] at h; inv_err at h
    rcases h with ⟨hx, rfl⟩ | ⟨x, hx, ⟨h, rfl⟩ | ⟨_, ⟨h, rfl⟩ | ⟨_, ⟨h, rfl⟩ | ⟨_, ⟨h, rfl⟩ | ⟨_, h | ⟨b, hb, h | ⟨l, hl, h⟩⟩⟩⟩⟩⟩⟩
    · exact .auc (.none3 hx)
    · exact .auc (.own1 ⟨x, hx, h⟩)
    · exact .auc (.early1 ⟨x, hx, by omega⟩)
    · exact .auc (.small (by omega))
    · rcases beats_none h with h | ⟨h1, h⟩
      · rw [if_pos h.1]; exact .auc (.low ⟨x, hx, h⟩)
      · rw [if_neg h1]; exact .auc (.outbid ⟨x, hx, h⟩)
    · refine .pay ?_
      simp only [dues, hx, Option.elim_some, bidOf_eq]
      exact pays_err h
    · obtain ⟨l, hl⟩ := insertBid_no_panic (c := c) hc (l := AucM.removeBid a x.bids) (a := a) (v := v)
      rw [hl] at h; cases h
    · obtain ⟨q, hq⟩ : ∃ q, updateDeadline c w.auc.deadlines n (extend c { x with bids := l.2 } w.now).2 = .ok q := by
        cases (extend c { x with bids := l.2 } w.now).2 with
        | none => exact ⟨_, rfl⟩
        | some e => exact Queue.update_no_panic hi.len
      rw [hq] at h; cases h
  case removeBid n =>
    simp only [removeBidCall] at h; inv_err at h
    rcases h with ⟨hx, rfl⟩ | ⟨x, hx, ⟨h, rfl⟩ | ⟨_, ⟨h, rfl⟩ | ⟨v, hv, h⟩⟩⟩
    · exact .auc (.none4 hx)
    · exact .auc (.ending ⟨x, hx, by omega⟩)
    · exact .auc (.noBid ⟨x, hx, find_none h⟩)
    · refine .pay ?_
      simp only [dues, hx, Option.elim_some, bidOf_eq, hv, Option.getD_some]
      exact paysAll_err h
  case buyItNow n p =>
    simp only [buyItNow] at h; inv_err at h
    rcases h with ⟨hd, rfl⟩ | ⟨d, hd, ⟨hx, rfl⟩ | ⟨x, hx, ⟨h, rfl⟩ | ⟨q, hq, ⟨h, rfl⟩ | ⟨rfl, ⟨h, rfl⟩ | ⟨_, ⟨h, rfl⟩ | ⟨_, ⟨h, rfl⟩ | ⟨_, h⟩⟩⟩⟩⟩⟩⟩
    · exact .noNft rfl hd
    · exact .auc (.none5 hx)
    · exact .auc (.noPrice ⟨x, hx, h⟩)
    · exact .auc (.price ⟨x, hx, q, hq, h⟩)
    · exact .auc (.own2 ⟨x, hx, h⟩)
    · exact .auc (.early2 ⟨x, hx, by omega⟩)
    · refine .auc (.higher ⟨x, hx, ?_⟩)
      simp only [Option.mem_def, not_forall] at h
      obtain ⟨y, hy, h⟩ := h
      exact ⟨y, List.mem_of_getLast? hy, by omega⟩
    · have : a ≠ c.aucPot := fun e => ha (.inl e)
      exact .pay (ext_err (c := c) (src := a) hx hd (hi.ok n x hx).mkt (some_comm hx) (by intro y v; simp [pays, this]) h)
  case claim =>
    simp only [claim] at h; inv_err at h
    rcases h with ⟨h, rfl⟩ | ⟨v, hv, h⟩
    · exact .auc (.noClaim h)
    · refine .pay ?_
      simp only [dues, hv, Option.elim_some]
      exact paysAll_err h

end AucM

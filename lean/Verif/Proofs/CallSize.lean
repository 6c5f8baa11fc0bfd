import Verif.Model.CallSize
import Verif.Props.CallSizeSpec
import Verif.Proofs.Scope
import Verif.Proofs.Coll
import Verif.Proofs.RentStep
import Verif.Proofs.AucInv
/-
C120: the lists that calls rewrite, and the sizes calls are charged by.
-/
open Spec
variable {c : Cfg} {w w' : World} {a : AccountId}

/-- what the calls of a pallet leave alone -/
theorem Spec.Rewritten.nft {x} (h : NftM.call c w a x = .ok w') {l} (hl : Rewritten w w' l) : ∃ k, l = .members k := by
  have e := NftM.call_frame h
  cases l <;> simp only [Rewritten, bidsOf, offersOf, consentsOf] at hl <;> first | exact ⟨_, rfl⟩ | (exfalso; rw [e] at hl; simp at hl)

theorem Spec.Rewritten.auc {x} (h : AucM.call c w a x = .ok w') {l} (hl : Rewritten w w' l) :
    l = .deadlines ∨ ∃ n, l = .bids n := by
  have e := AucM.call_frame h
  cases l <;> simp only [Rewritten, membersOf, offersOf, consentsOf] at hl <;>
    first | exact .inl rfl | exact .inr ⟨_, rfl⟩ | (exfalso; rw [e] at hl; simp at hl)

theorem Spec.Rewritten.rent {x} (h : RentM.call c w a x = .ok w') {l} (hl : Rewritten w w' l) :
    l = .rentals ∨ ∃ n, l = .offers n := by
  have e := RentM.call_frame h
  cases l <;> simp only [Rewritten, membersOf, bidsOf, consentsOf] at hl <;>
    first | exact .inl rfl | exact .inr ⟨_, rfl⟩ | (exfalso; rw [e] at hl; simp at hl)

theorem Spec.Rewritten.tr {x} (h : TrM.call c w a x = .ok w') {l} (hl : Rewritten w w' l) :
    l = .transmissions ∨ ∃ n, l = .consents n := by
  have e := TrM.call_frame h
  cases l <;> simp only [Rewritten, membersOf, bidsOf, offersOf] at hl <;>
    first | exact .inl rfl | exact .inr ⟨_, rfl⟩ | (exfalso; rw [e] at hl; simp at hl)

theorem Spec.Rewritten.none {l} (hn : w'.nft = w.nft) (ha : w'.auc = w.auc) (hr : w'.rent = w.rent) (ht : w'.tr = w.tr)
    (hl : Rewritten w w' l) : False := by
  cases l <;> simp only [Rewritten, membersOf, bidsOf, offersOf, consentsOf, hn, ha, hr, ht] at hl <;> simp at hl

namespace NftM

/-- a call that writes the list of one existing collection -/
theorem members_insert {k k' : CollId} {col col' : Coll} (hk : w.nft.colls.get k' = some col)
    (h : w'.nft.colls = w.nft.colls.insert k' col') (hl : Rewritten w w' (.members k)) :
    k = k' ∧ col'.nfts ≠ col.nfts ∧ lengthOf w (.members k) = col.nfts.length := by
  simp only [Rewritten, membersOf, h, FMap.get_insert] at hl
  by_cases e : k = k'
  · subst e; simp only [if_true, hk, Option.map_some, Option.getD_some] at hl
    exact ⟨rfl, hl, by simp [lengthOf, membersOf, hk]⟩
  · simp [e] at hl

theorem create_size {data roy coll sb k} (h : createHelper c w a data roy coll sb = .ok w')
    (hl : Rewritten w w' (.members k)) : lengthOf w (.members k) ≤ collSize w coll := by
  obtain ⟨b, w1, _, h2, _, rfl⟩ := createHelper_ok h
  cases coll with
  | none =>
    simp only [pushToColl] at h2; inv_ok at h2; subst h2
    simp [Rewritten, membersOf, World.putNft, World.putBal] at hl
  | some k' =>
    simp only [pushToColl] at h2; inv_ok at h2
    obtain ⟨col1, hk', _, _, _, _, rfl⟩ := h2
    obtain ⟨_, _, e⟩ := members_insert (w := w) hk' rfl hl
    rw [e]; simp only [collSize]
    rw [show w.nft.colls.get k' = some col1 from hk']
    exact Nat.le_refl _

theorem size_ok (hi : CollInv c w) {x k} (h : call c w a x = .ok w') (hl : Rewritten w w' (.members k)) :
    ∃ s, callSize w x = some s ∧ lengthOf w (.members k) ≤ s := by
  have no : ∀ {P : Prop}, w'.nft.colls = w.nft.colls → P := fun {P} e => by
    simp [Rewritten, membersOf, e] at hl
  have hs : ∀ {w w' : World} {n data}, addSecretHelper c w a n data = .ok w' → w'.nft.colls = w.nft.colls := by
    intro w w' n data h
    simp only [addSecretHelper] at h; frame_auto at h; rfl
  have ht : ∀ {w w' : World} {n data}, toCapsuleHelper c w a n data = .ok w' → w'.nft.colls = w.nft.colls := by
    intro w w' n data h
    simp only [toCapsuleHelper] at h; frame_auto at h; rfl
  have eq : ∀ {w1 w2 : World}, w2.nft.colls = w1.nft.colls → Rewritten w w2 (.members k) → Rewritten w w1 (.members k) := by
    intro w1 w2 e h; simpa [Rewritten, membersOf, e] using h
  cases x <;> simp only [call] at h
  case createNft => exact ⟨_, rfl, create_size h hl⟩
  case createSecret =>
    simp only [createSecret] at h; inv_ok at h
    obtain ⟨w1, _, h1, h2⟩ := h
    exact ⟨_, rfl, create_size h1 (eq (hs h2) hl)⟩
  case createCapsule =>
    simp only [createCapsule] at h; inv_ok at h
    obtain ⟨w1, _, h1, h2⟩ := h
    exact ⟨_, rfl, create_size h1 (eq (ht h2) hl)⟩
  case addSecret => exact no (hs h)
  case toCapsule => exact no (ht h)
  case transferNft => simp only [transferNft] at h; frame_auto at h; exact no rfl
  case delegateNft => simp only [delegateNft] at h; frame_auto at h; exact no rfl
  case setRoyalty => simp only [setRoyalty] at h; frame_auto at h; exact no rfl
  case notifyKey => simp only [notifyKey] at h; frame_auto at h; exact no rfl
  case setCapsuleData => simp only [setCapsuleData] at h; frame_auto at h; exact no rfl
  case addSecretShard => simp only [addSecretShard] at h; frame_auto at h; exact no rfl
  case addCapsuleShard => simp only [addCapsuleShard] at h; frame_auto at h; exact no rfl
  case closeColl =>
    simp only [closeColl] at h; inv_ok at h
    obtain ⟨col1, hk1, _, rfl⟩ := h
    have := (members_insert hk1 rfl hl).2.1
    exact absurd rfl this
  case limitColl =>
    simp only [limitColl] at h; inv_ok at h
    obtain ⟨col1, hk1, _, h1, _, _, _, rfl⟩ := h
    have := (members_insert hk1 rfl hl).2.1
    exact absurd rfl this
  case setCollData =>
    simp only [setCollData] at h; inv_ok at h
    obtain ⟨col1, hk1, _, rfl⟩ := h
    have := (members_insert hk1 rfl hl).2.1
    exact absurd rfl this
  case addToColl =>
    simp only [addToColl] at h; inv_ok at h
    obtain ⟨col1, d, hk1, ho, hcl, h1, hd, _, h2, h3, rfl⟩ := h
    obtain ⟨_, _, e⟩ := members_insert hk1 rfl hl
    refine ⟨_, rfl, ?_⟩
    rw [e]; simp [collSize, hk1]
  case createColl =>
    simp only [createColl] at h; inv_ok at h
    obtain ⟨nx, h1, h2, rfl⟩ := h
    exfalso
    simp only [Rewritten, membersOf, FMap.get_insert] at hl
    split at hl
    · rename_i e; subst e; rw [hi.fresh _ (Nat.le_refl _)] at hl; simp at hl
    · simp at hl
  case burnColl k' =>
    simp only [burnColl] at h; inv_ok at h
    obtain ⟨col1, hk1, ho, hn, rfl⟩ := h
    exfalso
    simp only [Rewritten, membersOf, FMap.get_erase] at hl
    split at hl
    · rename_i e; subst e; simp [hk1, hn] at hl
    · simp at hl
  case burnNft n =>
    simp only [burnNft] at h
    inv_ok at h
    obtain ⟨d, w1, hd, _, _, _, _, _, h5, rfl⟩ := h
    simp only [callSize, hd]
    refine ⟨_, rfl, ?_⟩
    cases hc : d.coll with
    | none =>
      rw [hc] at h5
      simp only [dropFromColl] at h5; inv_ok at h5; subst h5
      simp [Rewritten, membersOf] at hl
    | some k' =>
      rw [hc] at h5
      simp only [dropFromColl] at h5; inv_ok at h5
      obtain ⟨col1, hk1, hm, rfl⟩ := h5
      obtain ⟨_, _, e⟩ := members_insert (w' := _) hk1 rfl hl
      rw [e]; simp [collSize, hk1]

end NftM

namespace AucM

theorem bids_insert {n m : NFTId} {x : Auction} (h : w'.auc.auctions = w.auc.auctions.insert n x)
    (hl : Rewritten w w' (.bids m)) : m = n ∧ x.bids ≠ bidsOf w n := by
  simp only [Rewritten, bidsOf, h, FMap.get_insert] at hl
  by_cases e : m = n
  · subst e; simp only [if_true, Option.map_some, Option.getD_some] at hl; exact ⟨rfl, hl⟩
  · simp [e] at hl

theorem bids_erase {n m : NFTId} (h : w'.auc.auctions = w.auc.auctions.erase n) (hl : Rewritten w w' (.bids m)) :
    m = n ∧ bidsOf w n ≠ [] := by
  simp only [Rewritten, bidsOf, h, FMap.get_erase] at hl
  by_cases e : m = n
  · subst e; simp only [if_true, Option.map_none, Option.getD_none] at hl; exact ⟨rfl, hl.symm⟩
  · simp [e] at hl

theorem size_ok (hi : Inv c w) (hg : ∀ n, Good c (slice w n)) {x l} (h : call c w a x = .ok w') (hl : Rewritten w w' l)
    (hu : ¬ Uncharged (.auc x) l) : ∃ s, callSize w x = some s ∧ lengthOf w l ≤ s := by
  rcases hl.auc h with rfl | ⟨m, rfl⟩
  · cases call_act h
    case addBid => exact absurd .addBid hu
    case claim => simp [Rewritten] at hl
    case removeBid => simp [Rewritten] at hl
    all_goals exact ⟨_, rfl, Nat.le_refl _⟩
  · cases call_act h
    case create n _ s e p bi d k q _ _ _ _ _ _ hd _ hs _ _ _ _ =>
      exfalso
      obtain ⟨rfl, hn⟩ := bids_insert (w' := _) rfl hl
      have : w.auc.auctions.get m = none := by
        have := ((hg m).nft d hd).listed
        rw [hs] at this
        simp only [Bool.false_eq_true, false_iff, not_or, ne_eq, not_not] at this
        exact this.2
      simp [bidsOf, this] at hn
    case cancel n d x _ hx _ hn =>
      exfalso
      obtain ⟨rfl, hb⟩ := bids_erase (w' := _) rfl hl
      simp only [bidsOf, hx, Option.map_some, Option.getD_some] at hb
      have := (hi.ok _ x hx).begun (.inl hb)
      omega
    case end_ n _ _ _ _ _ _ _ _ _ _ =>
      obtain ⟨rfl, _⟩ := bids_erase (w' := _) rfl hl
      exact absurd .end_ hu
    case addBid n v x b dr l q hx _ _ _ _ _ _ _ =>
      obtain ⟨rfl, _⟩ := bids_insert (w' := _) rfl hl
      exact ⟨_, rfl, by simp [lengthOf, bidsOf, bidders, hx]⟩
    case removeBid n x v b hx _ _ _ =>
      obtain ⟨rfl, _⟩ := bids_insert (w' := _) rfl hl
      exact ⟨_, rfl, by simp [lengthOf, bidsOf, bidders, hx]⟩
    case buyItNow =>
      obtain ⟨rfl, _⟩ := bids_erase (w' := _) rfl hl
      exact absurd .buyItNow hu
    case claim => simp [Rewritten, bidsOf] at hl

end AucM

namespace RentM

theorem offers_insert {n m : NFTId} {x : List AccountId} (h : w'.rent.offers = w.rent.offers.insert n x)
    (hl : Rewritten w w' (.offers m)) : m = n := by
  by_contra e
  simp [Rewritten, offersOf, h, FMap.get_insert, e] at hl

theorem offers_erase {n m : NFTId} (h : w'.rent.offers = w.rent.offers.erase n)
    (hl : Rewritten w w' (.offers m)) : m = n := by
  by_contra e
  simp [Rewritten, offersOf, h, FMap.get_erase, e] at hl

theorem offers_same {m : NFTId} (h : w'.rent.offers = w.rent.offers) (hl : Rewritten w w' (.offers m)) : False := by
  simp [Rewritten, offersOf, h] at hl

theorem size_ok {x l} (h : call c w a x = .ok w') (hl : Rewritten w w' l)
    (hu : ¬ Uncharged (.rent x) l) : ∃ s, callSize w x = some s ∧ lengthOf w l ≤ s := by
  rcases hl.rent h with rfl | ⟨m, rfl⟩
  · have hd := call_did h
    cases x
    case retractOffer =>
      cases hd
      case start hs _ => rcases hs with ⟨h, _⟩ | ⟨h, _⟩ <;> cases h
      case retractOffer => simp [Rewritten] at hl
    all_goals exact ⟨_, rfl, Nat.le_refl _⟩
  · cases call_did h
    case create h =>
      exfalso; refine offers_same ?_ hl
      obtain ⟨d, b, q, h⟩ := create_ok h
      have e := h.2.2.2.2.2.2.2.2.2.2.2.2.2.2.2.2.2.2
      clear h; subst e; rfl
    case cancel => have := offers_erase (w' := _) rfl hl; subst this; exact absurd .cancel hu
    case revoke h =>
      exfalso; refine offers_same ?_ hl
      obtain ⟨k, r, d, b0, b1, b2, hk, hr, hp, hcr, hd, _, _, _, _, rfl⟩ := revoke_ok h
      cases k.duration <;> rfl
    case start n k r hk hs hst =>
      obtain ⟨F, S, e⟩ := hst.rent
      have := offers_erase (n := n) (by rw [e]) hl; subst this
      rcases hs with ⟨rfl, _⟩ | ⟨rfl, _⟩
      · exact absurd .rent hu
      · exact absurd .acceptOffer hu
    case makeOffer => have := offers_insert (w' := _) rfl hl; subst this; exact absurd .makeOffer hu
    case retractOffer n l h1 h2 =>
      have := offers_insert (w' := _) rfl hl; subst this
      simp only [callSize, h1]
      exact ⟨_, rfl, by simp [lengthOf, offersOf, h1]⟩
    case changeTerms n k s fee per md ch _ _ _ _ _ _ _ _ =>
      cases hk : k.rentee with
      | none =>
        have := offers_erase (n := n) (by simp [hk]) hl; subst this
        exact absurd .changeTerms hu
      | some r => exact (offers_same (by simp [hk]) hl).elim
    case acceptTerms => exact (offers_same rfl hl).elim

end RentM

namespace TrM

theorem size_ok {x l} (h : call c w a x = .ok w') (hl : Rewritten w w' l)
    (hu : ¬ Uncharged (.tr x) l) : lengthOf w l ≤ w.tr.queue.length := by
  rcases hl.tr h with rfl | ⟨m, rfl⟩
  · exact Nat.le_refl _
  · exfalso
    cases x <;> simp only [call] at h
    case set => simp only [set] at h; frame_auto at h; simp [Rewritten, consentsOf, World.putNft, World.putBal, World.ev] at hl
    case resetTimer => simp only [resetTimer] at h; frame_auto at h; simp [Rewritten, consentsOf] at hl
    case remove n =>
      by_cases e : m = n
      · subst e; exact hu .remove
      · simp only [remove] at h; inv_ok at h
        obtain ⟨d, t, hd, ho, h1, ht, h2, rfl⟩ := h
        simp only [Rewritten, consentsOf, World.putNft] at hl
        cases hp : t.protocol <;> simp [hp, cleanup, kind, FMap.get_erase, e] at hl
    case addConsent n =>
      by_cases e : m = n
      · subst e; exact hu .addConsent
      · obtain ⟨d, t, x, _, _, _, _, _, _, _, _, h⟩ := addConsent_ok h
        rcases h with ⟨_, rfl⟩ | ⟨_, _, rfl⟩ | ⟨_, _, _, _, _, _, _, rfl⟩ <;>
          simp [Rewritten, consentsOf, FMap.get_erase, FMap.get_insert, e] at hl

end TrM

theorem dispatch_size (hc : c.Ok) (hr : Reach c w) {x : Call} (h : dispatch c x (.signed a) w = .ok w') {l : Lst}
    (hl : Rewritten w w' l) (hu : ¬ Uncharged x l) : ∃ s, callSize w x = some s ∧ lengthOf w l ≤ s := by
  rw [dispatch_signed] at h
  cases x <;> simp only [signedCall] at h
  case nft x =>
    obtain ⟨k, rfl⟩ := hl.nft h
    exact NftM.size_ok (hr.coll hc) h hl
  case auc x => exact AucM.size_ok (hr.auc hc) (hr.inv hc).good h hl hu
  case rent x => exact RentM.size_ok h hl hu
  case tr x => exact ⟨_, rfl, TrM.size_ok h hl hu⟩
  case mkt x => have e := MktM.call_frame h; exact (hl.none (by rw [e]) (by rw [e]) (by rw [e]) (by rw [e])).elim
  case tee x => have e := TeeM.call_frame h; exact (hl.none (by rw [e]) (by rw [e]) (by rw [e]) (by rw [e])).elim
  case br x => have e := BrM.call_frame h; exact (hl.none (by rw [e]) (by rw [e]) (by rw [e]) (by rw [e])).elim
  case bal =>
    cases hb : w.bal.transfer c.ed a _ _ _ with
    | error e => rw [hb] at h; cases h
    | ok b => rw [hb] at h; cases h; exact (hl.none rfl rfl rfl rfl).elim
  all_goals cases h

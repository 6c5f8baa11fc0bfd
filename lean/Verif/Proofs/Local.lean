import Verif.Proofs.RentStep
import Verif.Proofs.TrStep
import Verif.Proofs.Lift
/-
A call changes only what is stored under the NFTs it is about.
-/
variable {c : Cfg} {w w' : World} {a : AccountId} {m : NFTId}

/-- what is stored under `m` is the same, including offers and the commission of an auction -/
structure Same (w w' : World) (m : NFTId) : Prop where
  slice : slice w' m = slice w m
  offers : w'.rent.offers.get m = w.rent.offers.get m
  comm : w'.auc.comm.get m = w.auc.comm.get m

theorem Same.refl (w : World) (m : NFTId) : Same w w m := ⟨rfl, rfl, rfl⟩

theorem Same.trans {u v : World} (h : Same w u m) (h' : Same u v m) : Same w v m :=
  ⟨h'.1.trans h.1, h'.2.trans h.2, h'.3.trans h.3⟩

/-- closes `Same` for explicit worlds that differ in other keys -/
macro "same_auto" " [" hs:Lean.Parser.Tactic.simpLemma,* "]" : tactic =>
  `(tactic| (constructor <;> simp [slice, World.putNft, World.putBal, World.ev, FMap.get_insert, FMap.get_erase,
    FMap.get_set, $hs,*]))

namespace NftM

/-- the NFT a call is about; creations are about the next id -/
def target (w : World) : Call → Option NFTId
  | .createNft .. => some w.nft.nextNft
  | .burnNft n => some n
  | .transferNft n _ => some n
  | .delegateNft n _ => some n
  | .setRoyalty n _ => some n
  | .addToColl n _ => some n
  | .addSecret n _ => some n
  | .createSecret .. => some w.nft.nextNft
  | .addSecretShard n => some n
  | .toCapsule n _ => some n
  | .createCapsule .. => some w.nft.nextNft
  | .setCapsuleData n _ => some n
  | .addCapsuleShard n => some n
  | .notifyKey n => some n
  | _ => none

theorem addSecretHelper_same {n data} (h : addSecretHelper c w a n data = .ok w') (hm : m ≠ n) : Same w w' m := by
  simp only [addSecretHelper] at h; frame_auto at h; same_auto [hm]

theorem toCapsuleHelper_same {n data} (h : toCapsuleHelper c w a n data = .ok w') (hm : m ≠ n) : Same w w' m := by
  simp only [toCapsuleHelper] at h; frame_auto at h; same_auto [hm]

theorem createHelper_same {data roy coll sb} (h : createHelper c w a data roy coll sb = .ok w')
    (hm : m ≠ w.nft.nextNft) : Same w w' m ∧ w'.nft.nextNft = w.nft.nextNft + 1 := by
  obtain ⟨b, w1, _, h2, _, rfl⟩ := createHelper_ok h
  have hb : below m (w.nft.nextNft + 1) = below m w.nft.nextNft := by unfold below; congr 1; simp; omega
  cases coll with
  | none =>
    simp only [pushToColl] at h2; frame_auto at h2
    exact ⟨by same_auto [hm, hb], rfl⟩
  | some j =>
    simp only [pushToColl] at h2; frame_auto at h2
    exact ⟨by same_auto [hm, hb], rfl⟩

theorem call_same {x : Call} (h : call c w a x = .ok w') (hm : some m ≠ target w x) : Same w w' m := by
  cases x <;> simp only [call, target, ne_eq, Option.some.injEq] at h hm
  case createNft => exact (createHelper_same h hm).1
  case burnNft n =>
    simp only [burnNft] at h
    inv_ok at h
    obtain ⟨d, w1, _, _, _, _, _, _, h5, rfl⟩ := h
    cases hcoll : d.coll <;> simp only [hcoll, dropFromColl] at h5 <;> frame_auto at h5 <;>
      cases h1 : d.st.secret <;> cases h2 : d.st.syncSecret <;> cases h3 : d.st.capsule <;>
      cases h4 : d.st.syncCapsule <;> same_auto [hm, h1, h2, h3, h4]
  case transferNft => simp only [transferNft] at h; frame_auto at h; same_auto [hm]
  case delegateNft => simp only [delegateNft] at h; frame_auto at h; same_auto [hm]
  case setRoyalty => simp only [setRoyalty] at h; frame_auto at h; same_auto [hm]
  case createColl => simp only [createColl] at h; frame_auto at h; same_auto [hm]
  case burnColl => simp only [burnColl] at h; frame_auto at h; same_auto [hm]
  case closeColl => simp only [closeColl] at h; frame_auto at h; same_auto [hm]
  case limitColl => simp only [limitColl] at h; frame_auto at h; same_auto [hm]
  case addToColl => simp only [addToColl] at h; frame_auto at h; same_auto [hm]
  case addSecret => exact addSecretHelper_same h hm
  case createSecret =>
    simp only [createSecret] at h; inv_ok at h
    obtain ⟨w1, _, h1, h2⟩ := h
    obtain ⟨s1, e⟩ := createHelper_same h1 hm
    exact s1.trans (addSecretHelper_same h2 (by rw [e]; simpa using hm))
  case addSecretShard => simp only [addSecretShard] at h; frame_auto at h; same_auto [hm]
  case toCapsule => exact toCapsuleHelper_same h hm
  case createCapsule =>
    simp only [createCapsule] at h; inv_ok at h
    obtain ⟨w1, _, h1, h2⟩ := h
    obtain ⟨s1, e⟩ := createHelper_same h1 hm
    exact s1.trans (toCapsuleHelper_same h2 (by rw [e]; simpa using hm))
  case setCapsuleData => simp only [setCapsuleData] at h; frame_auto at h; same_auto [hm]
  case addCapsuleShard => simp only [addCapsuleShard] at h; frame_auto at h; same_auto [hm]
  case notifyKey => simp only [notifyKey] at h; frame_auto at h; same_auto [hm]
  case setCollData => simp only [setCollData] at h; frame_auto at h; same_auto [hm]

end NftM

/-- the NFT a call of the marketplace pallet is about -/
def MktM.target : MktM.Call → Option NFTId
  | .list n _ _ => some n
  | .unlist n => some n
  | .buy n _ => some n
  | _ => none

theorem MktM.call_same {x : Call} (h : call c w a x = .ok w') (hm : some m ≠ target x) : Same w w' m := by
  cases x <;> simp only [call, target, ne_eq, Option.some.injEq] at h hm
  case create => simp only [create] at h; frame_auto at h; same_auto [hm]
  case setOwner => simp only [setOwner] at h; frame_auto at h; same_auto [hm]
  case setKind => simp only [setKind] at h; frame_auto at h; same_auto [hm]
  case setConfig => simp only [setConfig] at h; frame_auto at h; same_auto [hm]
  case list => simp only [list] at h; frame_auto at h; same_auto [hm]
  case unlist => simp only [unlist] at h; frame_auto at h; same_auto [hm]
  case buy => simp only [buy] at h; frame_auto at h; same_auto [hm]

/-- the NFT a call of the auction pallet is about -/
def AucM.target : AucM.Call → Option NFTId
  | .create n .. => some n
  | .cancel n => some n
  | .end_ n => some n
  | .addBid n _ => some n
  | .removeBid n => some n
  | .buyItNow n _ => some n
  | .claim => none

theorem AucM.call_same {x : Call} (h : call c w a x = .ok w') (hm : some m ≠ target x) : Same w w' m := by
  cases x <;> simp only [call, target, ne_eq, Option.some.injEq] at h hm
  case create => simp only [create] at h; frame_auto at h; same_auto [hm]
  case cancel => simp only [cancel] at h; frame_auto at h; same_auto [hm]
  case end_ => simp only [end_] at h; frame_auto at h; same_auto [hm]
  case addBid => simp only [addBid] at h; frame_auto at h; same_auto [hm]
  case removeBid => simp only [removeBidCall] at h; frame_auto at h; same_auto [hm]
  case buyItNow => simp only [buyItNow] at h; frame_auto at h; same_auto [hm]
  case claim => simp only [claim] at h; frame_auto at h; same_auto [hm]

theorem TrM.call_same {x : Call} (h : call c w a x = .ok w') (hm : m ≠ x.target) : Same w w' m := by
  cases x <;> simp only [call, Call.target, ne_eq, Option.some.injEq] at h hm
  case set => simp only [set] at h; frame_auto at h; same_auto [hm]
  case remove =>
    simp only [remove] at h
    inv_ok at h
    obtain ⟨d, t, hd, ho, h1, ht, h2, rfl⟩ := h
    cases t.protocol <;> same_auto [hm, cleanup, kind]
  case resetTimer => simp only [resetTimer] at h; frame_auto at h; same_auto [hm]
  case addConsent =>
    obtain ⟨d, t, x, hd, h1, ht, hx, h2, h3, h4, h5, h⟩ := addConsent_ok h
    rcases h with ⟨h6, rfl⟩ | ⟨h6, _, rfl⟩ | ⟨h6, e, q, _, _, _, _, rfl⟩ <;> same_auto [hm]

namespace RentM

/-- the NFTs a call of the rent pallet is about: the rented one, and those that change hands with it -/
def about (w : World) (m : NFTId) : Call → Prop
  | .create n _ _ _ _ f _ => m = n ∨ feeNft f = some m
  | .cancel n => m = n ∨ ∃ k, w.rent.contracts.get n = some k ∧ feeNft k.renterFee = some m
  | .revoke n => m = n ∨ ∃ k, w.rent.contracts.get n = some k ∧ (feeNft k.renterFee = some m ∨ feeNft k.renteeFee = some m)
  | .rent n _ => m = n ∨ ∃ k, w.rent.contracts.get n = some k ∧ (rentNft k.rentFee = some m ∨ feeNft k.renteeFee = some m)
  | .acceptOffer n _ =>
    m = n ∨ ∃ k, w.rent.contracts.get n = some k ∧ (rentNft k.rentFee = some m ∨ feeNft k.renteeFee = some m)
  | .makeOffer n _ => m = n
  | .retractOffer n => m = n
  | .changeTerms n .. => m = n
  | .acceptTerms n .. => m = n

theorem start_same {n k r} (h : Started c w n k r w') (hn : m ≠ n) (h1 : rentNft k.rentFee ≠ some m)
    (h2 : feeNft k.renteeFee ≠ some m) : Same w w' m := by
  obtain ⟨b1, b2, q, _, _, _, _, hq, rfl⟩ := h.out
  same_auto [hn, get_cho, h1, h2]

theorem call_same {x : Call} (h : call c w a x = .ok w') (hm : ¬ about w m x) : Same w w' m := by
  cases x <;> simp only [call] at h <;> simp only [about, not_or, not_exists, not_and] at hm
  case create =>
    obtain ⟨d, b, q, h⟩ := create_ok h
    have e := h.2.2.2.2.2.2.2.2.2.2.2.2.2.2.2.2.2.2
    clear h; subst e
    same_auto [hm.1, get_cho, hm.2]
  case cancel n =>
    simp only [cancel] at h; inv_ok at h
    obtain ⟨k, hk, h1, h2, h⟩ := h
    obtain ⟨k', d, b1, b2, hk', hd, _, _, rfl⟩ := finished_ok (ext_ok h)
    have e : k' = k := by
      have : w.rent.contracts.get n = some k' := hk'
      rw [hk] at this; simpa using this.symm
    subst e
    have e : renteeNft k' = none := by simp [renteeNft, h2]
    same_auto [hm.1, get_cho, hm.2 k' hk, e]
  case revoke n =>
    obtain ⟨k, r, d, b0, b1, b2, hk, hr, hp, hcr, hd, _, _, _, _, rfl⟩ := revoke_ok h
    have := hm.2 k hk
    by_cases hra : k.renter = a <;> cases hd : k.duration <;>
      same_auto [hm.1, get_cho, this.1, this.2, hra, removeKind, hd]
  case rent =>
    simp only [rent] at h; inv_ok at h
    obtain ⟨k, hk, _, _, _, _, _, h⟩ := h
    exact start_same (startContract_started h) hm.1 (hm.2 k hk).1 (hm.2 k hk).2
  case makeOffer => simp only [makeOffer] at h; frame_auto at h; same_auto [hm]
  case acceptOffer =>
    simp only [acceptOffer] at h; inv_ok at h
    obtain ⟨k, l, hk, hl, _, _, h⟩ := h
    exact start_same (startContract_started h) hm.1 (hm.2 k hk).1 (hm.2 k hk).2
  case retractOffer => simp only [retractOffer] at h; frame_auto at h; same_auto [hm]
  case changeTerms =>
    simp only [changeTerms] at h; frame_auto at h; same_auto [hm]
    split <;> simp [FMap.get_erase, hm]
  case acceptTerms => simp only [acceptTerms] at h; frame_auto at h; same_auto [hm]

end RentM

import Verif.Props.Content
import Verif.Props.Bridge
/-
Properties C79 and C80.
-/
variable {c : Cfg} {w w' : World} {a : AccountId} {m n : NFTId} {o : Op}
set_option maxRecDepth 10000

/- Specification -/
namespace Spec

/-- `a` owns the NFT -/
def Owns (w : World) (a : AccountId) (n : NFTId) : Prop := ∃ d, w.nfts.get n = some d ∧ d.owner = a

/-- `a` owns the collection -/
def OwnsColl (w : World) (a : AccountId) (k : CollId) : Prop := ∃ d, w.nft.colls.get k = some d ∧ d.owner = a

/-- `a` owns the marketplace -/
def OwnsMkt (w : World) (a : AccountId) (m : MktId) : Prop := ∃ d, w.mkt.mkts.get m = some d ∧ d.owner = a

/-- the acceptance rule of a contract lets `a` in: there is no list of accounts, or `a` is on it -/
def LetsIn (a : AccountId) : Acceptance → Prop
  | .auto l => ∀ x, l = some x → a ∈ x
  | .manual l => ∀ x, l = some x → a ∈ x

/-- the accounts whose consent a protocol asks for -/
def consenters : Protocol → List AccountId
  | .onConsent l _ => l
  | .onConsentAtBlock l _ _ => l
  | _ => []

/-- `a` is the party this call belongs to. -/
def Entitled (w : World) (a : AccountId) : Call → Prop
  | .nft (.createNft _ _ k _) => ∀ x, k = some x → OwnsColl w a x
  | .nft (.createSecret _ _ _ k _) => ∀ x, k = some x → OwnsColl w a x
  | .nft (.createCapsule _ _ _ k _) => ∀ x, k = some x → OwnsColl w a x
  | .nft (.burnNft n) => Owns w a n
  | .nft (.transferNft n _) => Owns w a n
  | .nft (.delegateNft n _) => Owns w a n
  | .nft (.setRoyalty n _) => ∃ d, w.nfts.get n = some d ∧ d.owner = a ∧ d.creator = a
  | .nft (.createColl ..) => True
  | .nft (.burnColl k) => OwnsColl w a k
  | .nft (.closeColl k) => OwnsColl w a k
  | .nft (.limitColl k _) => OwnsColl w a k
  | .nft (.setCollData k _) => OwnsColl w a k
  | .nft (.addToColl n k) => Owns w a n ∧ OwnsColl w a k
  | .nft (.addSecret n _) => Owns w a n
  | .nft (.toCapsule n _) => Owns w a n
  | .nft (.setCapsuleData n _) => Owns w a n
  | .nft (.notifyKey n) => Owns w a n
  | .nft (.addSecretShard _) => ∃ s, IsEnclave w a s
  | .nft (.addCapsuleShard _) => ∃ s, IsEnclave w a s
  | .mkt (.create _) => True
  | .mkt (.setOwner m _) => OwnsMkt w a m
  | .mkt (.setKind m _) => OwnsMkt w a m
  | .mkt (.setConfig m ..) => OwnsMkt w a m
  | .mkt (.list n ..) => Owns w a n
  | .mkt (.unlist n) => Owns w a n ∧ ∃ s, w.mkt.sales.get n = some s ∧ s.seller = a
  | .mkt (.buy n p) => ∃ s, w.mkt.sales.get n = some s ∧ s.seller ≠ a ∧ s.price = p
  | .auc (.create n ..) => Owns w a n
  | .auc (.cancel n) => ∃ x, w.auc.auctions.get n = some x ∧ x.creator = a
  | .auc (.end_ n) => ∃ x, w.auc.auctions.get n = some x ∧ x.creator = a
  | .auc (.addBid n _) => ∃ x, w.auc.auctions.get n = some x ∧ x.creator ≠ a
  | .auc (.removeBid n) => ∃ x v, w.auc.auctions.get n = some x ∧ (a, v) ∈ x.bids
  | .auc (.buyItNow n p) => ∃ x, w.auc.auctions.get n = some x ∧ x.creator ≠ a ∧ x.buyIt = some p
  | .auc .claim => ∃ v, w.auc.claims.get a = some v
  | .rent (.create n _ _ _ _ f _) => Owns w a n ∧ ∀ m, f = .nft m → Owns w a m
  | .rent (.cancel n) => ∃ k, w.rent.contracts.get n = some k ∧ k.renter = a
  | .rent (.revoke n) => ∃ k r, w.rent.contracts.get n = some k ∧ k.rentee = some r ∧
      ((k.renter = a ∧ k.renterCanRevoke = true) ∨ (k.renter ≠ a ∧ r = a))
  | .rent (.rent n b) => ∃ k, w.rent.contracts.get n = some k ∧ k.creation = b ∧ k.renter ≠ a ∧
      (∃ l, k.acceptance = .auto l) ∧ LetsIn a k.acceptance
  | .rent (.makeOffer n b) => ∃ k, w.rent.contracts.get n = some k ∧ k.creation = b ∧ k.renter ≠ a ∧
      (∃ l, k.acceptance = .manual l) ∧ LetsIn a k.acceptance
  | .rent (.acceptOffer n r) => ∃ k, w.rent.contracts.get n = some k ∧ k.renter = a ∧ Offers w n r
  | .rent (.retractOffer n) => Offers w n a
  | .rent (.changeTerms n ..) => ∃ k, w.rent.contracts.get n = some k ∧ k.renter = a
  | .rent (.acceptTerms n ..) => ∃ k, w.rent.contracts.get n = some k ∧ k.rentee = some a
  | .tr (.set n ..) => Owns w a n
  | .tr (.remove n) => Owns w a n
  | .tr (.resetTimer n _) => Owns w a n
  | .tr (.addConsent n) => ∃ t, w.tr.trans.get n = some t ∧ a ∈ consenters t.protocol
  | .tee (.register _ _) => w.tee.registrations.get a = none ∧ w.tee.data.get a = none
  | .tee .unregister => w.tee.data.get a ≠ none ∨ w.tee.registrations.get a ≠ none
  | .tee (.update _ _) => w.tee.data.get a ≠ none
  | .tee .cancelUpdate => w.tee.updates.get a ≠ none
  | .tee .withdraw => ∃ s, w.tee.ledger.get a = some s ∧ s.unlocking = true
  | .tee (.submitReport _ _) => ∃ s ∈ w.tee.servers, s.addr = a ∧ s.kind = .pub
  | .tee (.claim _) => w.tee.data.get a ≠ none
  | .tee .bondExtra => w.tee.ledger.get a ≠ none
  | .tee .refundExcess => w.tee.ledger.get a ≠ none
  | .br (.vote _ _) => a ∈ w.br.relayers
  | .br (.deposit ..) => True
  | .bal .. => True
  | .root _ => False
  | .ext _ => False
  | .mandate _ => False

end Spec

/- C79 -/

theorem NftM.call_entitled {x : Call} (h : call c w a x = .ok w') : Spec.Entitled w a (.nft x) := by
  have hc : ∀ {w w' data roy coll sb}, createHelper c w a data roy coll sb = .ok w' →
      ∀ x, coll = some x → Spec.OwnsColl w a x := by
    intro w w' data roy coll sb h x e
    subst e
    obtain ⟨b, w1, _, h2, _⟩ := createHelper_ok h
    simp only [pushToColl] at h2; frame_auto at h2
    simp_all [Spec.OwnsColl, World.putBal]
  cases x <;> simp only [call] at h <;> simp only [Spec.Entitled]
  case createNft => exact hc h
  case createSecret =>
    simp only [createSecret] at h
    inv_ok at h
    obtain ⟨_, w1, h1, _⟩ := h
    exact hc h1
  case createCapsule =>
    simp only [createCapsule] at h
    inv_ok at h
    obtain ⟨_, w1, h1, _⟩ := h
    exact hc h1
  all_goals
    first
    | (simp only [burnNft, transferNft, delegateNft, setRoyalty, burnColl, closeColl, limitColl, setCollData, addToColl,
        addSecret, addSecretHelper, toCapsule, toCapsuleHelper, setCapsuleData, notifyKey] at h
       frame_auto at h
       simp_all [Spec.Owns, Spec.OwnsColl]; done)
    | skip
  all_goals
    simp only [addSecretShard, addCapsuleShard] at h
    inv_ok at h
    obtain ⟨s, _, _, h, _⟩ := h
    exact ⟨s, isEnclave h⟩

theorem MktM.call_entitled {x : Call} (h : call c w a x = .ok w') (hg : ∀ n, Good c (slice w n)) :
    Spec.Entitled w a (.mkt x) := by
  cases x <;> simp only [call] at h <;> simp only [Spec.Entitled]
  case unlist n =>
    simp only [unlist] at h
    inv_ok at h
    obtain ⟨d, s, h1, h2, h3, _⟩ := h
    exact ⟨⟨d, h1, h2⟩, s, h3, (((hg n).nft d h1).seller s h3).trans h2⟩
  all_goals
    simp only [setOwner, setKind, setConfig, list, buy] at h
    frame_auto at h
    simp_all [Spec.Owns, Spec.OwnsMkt]

theorem AucM.call_entitled {x : Call} (h : call c w a x = .ok w') : Spec.Entitled w a (.auc x) := by
  cases x <;> simp only [call] at h <;> simp only [Spec.Entitled]
  all_goals
    first
    | (simp only [create, cancel, end_, addBid, buyItNow, claim] at h
       frame_auto at h
       simp_all [Spec.Owns]; done)
    | skip
  simp only [removeBidCall] at h
  inv_ok at h
  obtain ⟨x, v, b, h1, _, h2, _⟩ := h
  exact ⟨x, v, h1, findBid_mem h2⟩

theorem RentM.call_entitled {x : Call} (h : call c w a x = .ok w') : Spec.Entitled w a (.rent x) := by
  cases x <;> simp only [call] at h <;> simp only [Spec.Entitled]
  all_goals
    first
    | (simp only [cancel, revoke, rent, makeOffer, acceptOffer, retractOffer, changeTerms, acceptTerms] at h
       inv_ok at h
       repeat' (first | (obtain ⟨_, h⟩ := h))
       simp_all [Spec.Offers]; done)
    | skip
  case create =>
    obtain ⟨d, b, q, h⟩ := create_ok h
    obtain ⟨_, h1, h2, _, _, _, _, _, _, _, _, _, _, _, _, _, h3, _⟩ := h
    refine ⟨⟨d, h1, h2⟩, fun m e => ?_⟩
    obtain ⟨x, h4, h5, _⟩ := h3 m (by rw [e]; rfl)
    exact ⟨x, h4, h5⟩
  case revoke =>
    simp only [revoke] at h
    inv_ok at h
    obtain ⟨k, r, _, _, _, h1, h2, h3, h4, _⟩ := h
    refine ⟨k, r, h1, h2, ?_⟩
    by_cases e : k.renter = a
    · exact Or.inl ⟨e, h4 e⟩
    · exact Or.inr ⟨e, h3.resolve_left e⟩
  case rent =>
    simp only [rent] at h
    inv_ok at h
    obtain ⟨k, h1, h2, h3, h4, h5, h6, _⟩ := h
    refine ⟨k, h1, h2, h4, ?_⟩
    cases e : k.acceptance <;> simp_all [isManual, admitted, allowList, Spec.LetsIn]
  case makeOffer =>
    simp only [makeOffer] at h
    inv_ok at h
    obtain ⟨k, _, h1, h2, _, h4, h5, h6, _⟩ := h
    refine ⟨k, h1, h2, h4, ?_⟩
    cases e : k.acceptance <;> simp_all [isManual, admitted, allowList, Spec.LetsIn]

theorem TrM.call_entitled {x : Call} (h : call c w a x = .ok w') : Spec.Entitled w a (.tr x) := by
  cases x <;> simp only [call] at h <;> simp only [Spec.Entitled]
  all_goals
    first
    | (simp only [set, remove, resetTimer, addConsent] at h
       inv_ok at h
       repeat' (first | (obtain ⟨_, h⟩ := h))
       simp_all [Spec.Owns]; done)
    | skip
  simp only [addConsent] at h
  inv_ok at h
  repeat' (first | (obtain ⟨_, h⟩ := h))
  rename_i d t x _ _ h1 h2 _ h3 _ _
  refine ⟨t, h1, ?_⟩
  cases e : t.protocol <;> rw [e] at h2 <;> simp only [consentData, Option.some.injEq, reduceCtorEq] at h2 <;> subst h2 <;>
    exact h3

theorem TeeM.call_entitled {x : Call} (h : call c w a x = .ok w') : Spec.Entitled w a (.tee x) := by
  cases x <;> simp only [call] at h <;> simp only [Spec.Entitled]
  all_goals
    first
    | (simp only [register, unregister, unregisterAssigned, dropRegistration, update, dropUpdate, withdraw, submitReport,
         claim, bondExtra, refundExcess] at h
       inv_ok at h
       repeat' (first | (obtain ⟨_, h⟩ := h))
       simp_all; done)
    | skip
  case unregister =>
    simp only [unregister] at h
    split at h
    · rename_i h1; exact Or.inl (by simp [h1])
    · simp only [dropRegistration] at h
      inv_ok at h
      obtain ⟨_, h1, _⟩ := h
      exact Or.inr (by simp [h1])
  case submitReport =>
    simp only [submitReport] at h
    inv_ok at h
    obtain ⟨s, _, _, _, h1, h2, _⟩ := h
    exact ⟨s, List.mem_of_find?_eq_some h1, by simpa using List.find?_some h1, h2⟩

theorem BrM.call_entitled {x : Call} (h : call c w a x = .ok w') : Spec.Entitled w a (.br x) := by
  cases x <;> simp only [call] at h <;> simp only [Spec.Entitled]
  simp only [voteFor] at h
  inv_ok at h
  repeat' (first | (obtain ⟨_, h⟩ := h))
  simp_all

/-- A call of a signed account succeeds only if that account is the party the call belongs to. -/
theorem C79 (hc : c.Ok) (hr : Reach c w) {x : Call} (h : dispatch c x (.signed a) w = .ok w') : Spec.Entitled w a x := by
  cases x <;> simp only [dispatch, signedCall] at h
  case nft x => exact NftM.call_entitled h
  case mkt x => exact MktM.call_entitled h (hr.inv hc).good
  case auc x => exact AucM.call_entitled h
  case rent x => exact RentM.call_entitled h
  case tr x => exact TrM.call_entitled h
  case tee x => exact TeeM.call_entitled h
  case br x => exact BrM.call_entitled h
  case bal => trivial
  all_goals simp at h

-- the seller takes back a listed NFT
example := C79 Demo.cfg_ok (Demo.reach listed (by decide))
  (Demo.accepted (x := .mkt (.unlist 0)) (o := .signed 1) (by decide))

/-- In terms of what happens: a signed call that changes anything was signed by the party it belongs to. -/
theorem C79_changes (hc : c.Ok) (hr : Reach c w) {x : Call} (h : step c w (.call (.signed a) x) ≠ w) :
    Spec.Entitled w a x := by
  cases e : dispatch c x (.signed a) w with
  | error e' => exact absurd (by simp [step, e, orSame]) h
  | ok w' => exact C79 hc hr e

-- a marketplace owner, a stranger, a relayer
example : (∃ w', dispatch Demo.cfg (.mkt (.unlist 0)) (.signed 1) (Demo.at_ listed) = .ok w') ∧
    (dispatch Demo.cfg (.mkt (.unlist 0)) (.signed 2) (Demo.at_ listed)).isOk = false ∧
    (dispatch Demo.cfg (.mkt (.buy 0 500)) (.signed 1) (Demo.at_ listed)).isOk = false ∧
    (dispatch Demo.cfg (.br (.vote 1 Demo.t7)) (.signed 4) (Demo.at_ Demo.bridge)).isOk = false ∧
    ∃ w', dispatch Demo.cfg (.br (.vote 1 Demo.t7)) (.signed 1) (Demo.at_ Demo.bridge) = .ok w' :=
  ⟨⟨_, rfl⟩, by decide, by decide, by decide, ⟨_, rfl⟩⟩

/- C80 -/

namespace Spec

/-- In the history `l` from `w`, no contract of NFT `n` lapses while there are offers for it. -/
def NoLapse (c : Cfg) (n : NFTId) (w : World) (l : List Op) : Prop :=
  ∀ l1 l2 r k, l = l1 ++ .hookRent :: l2 → Offers (run c w l1) n r → (run c w l1).rent.contracts.get n = some k →
    (run c w (l1 ++ [.hookRent])).rent.contracts.get n ≠ none

end Spec

/-- account 2 makes an offer for NFT 0; the contract lapses; account 2 gets the NFT and offers it for rent itself, to
account 3 only -/
abbrev circle : List Op :=
  [Demo.mint1, Demo.by_ 1 (.rent (.create 0 (.fixed 10) (.manual none) true (.tokens 100) .none .none)),
    Demo.by_ 2 (.rent (.makeOffer 0 0))] ++ Demo.ticks 20 ++ [.hookRent, Demo.by_ 1 (.nft (.transferNft 0 2)),
    Demo.by_ 2 (.rent (.create 0 (.fixed 10) (.auto (some [3])) true (.tokens 100) .none .none))]

/-- The claim fails: an offer survives its contract, so an account can become the rentee of its own contract, and one
that the list of accounts does not admit. -/
theorem C80_fails : ∃ c w o k, c.Ok ∧ Reach c w ∧ Op.Ok c o ∧ (step c w o).rent.contracts.get 0 = some k ∧
    k.renter = 2 ∧ k.rentee = some 2 ∧ k.acceptance = .auto (some [3]) :=
  ⟨Demo.cfg, Demo.at_ circle, Demo.by_ 2 (.rent (.acceptOffer 0 2)), _, Demo.cfg_ok, Demo.reach _ (by decide), by decide,
    rfl, by decide, by decide, by decide⟩

theorem Spec.LetsIn.of {k : Acceptance} (h : RentM.admitted k a) : Spec.LetsIn a k := by
  cases k <;> simp_all [RentM.admitted, RentM.allowList, Spec.LetsIn]

/-- where the rentee of a contract comes from, one step -/
theorem step_rentee (hc : c.Ok) (hr : Reach c w) (o : Op) (ho : o.Ok c) {k : Contract} {r : AccountId}
    (hk : (step c w o).rent.contracts.get n = some k) (hr' : k.rentee = some r) :
    ∃ k0, w.rent.contracts.get n = some k0 ∧ k0.renter = k.renter ∧ k0.acceptance = k.acceptance ∧
      (k0.rentee = some r ∨ (k.renter ≠ r ∧ Spec.LetsIn r k.acceptance) ∨ Spec.Offers w n r) := by
  rcases step_rent_case hc hr o ho with ⟨a, x, rfl, _, hd⟩ | ⟨rfl, hd⟩ | e
  · generalize step c w _ = w' at hd hk ⊢
    cases hd with
    | @create m _ _ _ _ _ _ _ h =>
      obtain ⟨d, b, q, h⟩ := RentM.create_ok h
      have e := h.2.2.2.2.2.2.2.2.2.2.2.2.2.2.2.2.2.2
      clear h; subst e
      simp only [FMap.get_insert] at hk
      split at hk
      · simp at hk; subst hk; simp at hr'
      · exact ⟨k, hk, rfl, rfl, Or.inl hr'⟩
    | cancel =>
      simp only [FMap.get_erase] at hk
      split at hk
      · simp at hk
      · exact ⟨k, hk, rfl, rfl, Or.inl hr'⟩
    | revoke h =>
      obtain ⟨_, _, _, _, _, _, _, _, _, _, _, _, _, h, _⟩ := RentM.revoke_out h (hr.inv hc).rent
      rw [h, FMap.get_erase] at hk
      split at hk
      · simp at hk
      · exact ⟨k, hk, rfl, rfl, Or.inl hr'⟩
    | @start m k0 r0 _ _ hk0 hx hs =>
      obtain ⟨F, S, e⟩ := hs.rent
      rw [e] at hk
      simp only [FMap.get_insert] at hk
      split at hk
      · rename_i e; subst e
        simp only [Option.some.injEq] at hk; subst hk
        simp only [Option.some.injEq] at hr'; subst hr'
        refine ⟨k0, hk0, rfl, rfl, ?_⟩
        rcases hx with ⟨_, _, _, h1, _, h2⟩ | ⟨_, _, l, h1, h2⟩
        · exact Or.inr (Or.inl ⟨h1, .of h2⟩)
        · exact Or.inr (Or.inr ⟨l, h1, h2⟩)
      · exact ⟨k, hk, rfl, rfl, Or.inl hr'⟩
    | makeOffer => exact ⟨k, hk, rfl, rfl, Or.inl hr'⟩
    | retractOffer => exact ⟨k, hk, rfl, rfl, Or.inl hr'⟩
    | changeTerms h1 =>
      simp only [FMap.get_insert] at hk
      split at hk
      · rename_i e; subst e
        simp only [Option.some.injEq] at hk; subst hk
        exact ⟨_, h1, rfl, rfl, Or.inl hr'⟩
      · exact ⟨k, hk, rfl, rfl, Or.inl hr'⟩
    | acceptTerms h1 =>
      simp only [FMap.get_insert] at hk
      split at hk
      · rename_i e; subst e
        simp only [Option.some.injEq] at hk; subst hk
        exact ⟨_, h1, rfl, rfl, Or.inl hr'⟩
      · exact ⟨k, hk, rfl, rfl, Or.inl hr'⟩
  · exact ⟨k, (RentM.Ticks.subset hd).1 _ _ hk, rfl, rfl, Or.inl hr'⟩
  · rw [e] at hk; exact ⟨k, hk, rfl, rfl, Or.inl hr'⟩

/-- Nobody is the rentee of their own contract, and every rentee is admitted by the contract's list of accounts, in every
history in which no contract of this NFT lapses with offers for it. Missing: the other histories (`C80_fails`). -/
theorem C80_partial (hc : c.Ok) {w0 : World} (h0 : Genesis c w0) (l : List Op) (hl : ∀ o ∈ l, o.Ok c)
    (hn : Spec.NoLapse c n w0 l) {k : Contract} {r : AccountId}
    (hk : (run c w0 l).rent.contracts.get n = some k) (hr : k.rentee = some r) :
    k.renter ≠ r ∧ Spec.LetsIn r k.acceptance := by
  suffices h : (∀ r, Spec.Offers (run c w0 l) n r → ∃ k, (run c w0 l).rent.contracts.get n = some k ∧
      k.renter ≠ r ∧ Spec.LetsIn r k.acceptance) ∧
      ∀ k r, (run c w0 l).rent.contracts.get n = some k → k.rentee = some r → k.renter ≠ r ∧ Spec.LetsIn r k.acceptance from
    h.2 k r hk hr
  clear hk hr k r
  induction l using List.reverseRecOn with
  | nil =>
    refine ⟨?_, ?_⟩
    · rintro r ⟨l, h, _⟩
      simp only [run, List.foldl_nil] at h
      rw [h0.rent.2.2.2.2] at h; simp at h
    · intro k r h
      simp only [run, List.foldl_nil] at h
      rw [h0.rent.1] at h; simp at h
  | append_singleton l o ih =>
    have hl' : ∀ o ∈ l, o.Ok c := fun x hx => hl x (by simp [hx])
    have ho : o.Ok c := hl o (by simp)
    have hr : Reach c (run c w0 l) := (Reach.init h0).run l hl'
    obtain ⟨i1, i2⟩ := ih hl' fun l1 l2 r k e => hn l1 (l2 ++ [o]) r k (by rw [e]; simp)
    rw [run_snoc]
    refine ⟨fun r h => ?_, fun k r hk hr' => ?_⟩
    · rcases step_offer hc hr o ho h with ⟨h1, _, h2⟩ | ⟨k, h1, h2, h3, h4, h5, h6, _⟩
      · obtain ⟨k, hk, h3⟩ := i1 r h1
        rcases h2 with h2 | rfl | h2
        · exact ⟨k, h2.trans hk, h3⟩
        · have hne := hn l [] r k rfl h1 hk
          rw [run_snoc] at hne
          cases hk' : (step c (run c w0 l) .hookRent).rent.contracts.get n with
          | none => exact absurd hk' hne
          | some k' =>
            have := (RentM.Ticks.subset ((hr.inv hc).rent.ticks hr.micro.balInv)).1 n k' hk'
            rw [hk] at this; simp at this; subst this
            exact ⟨k, rfl, h3⟩
        · rw [hk] at h2; simp at h2
      · refine ⟨k, h4, h3, ?_⟩
        cases e : k.acceptance with
        | auto l => exact absurd e (h6 l)
        | manual l => intro x hx; exact h5 x (by rw [e, hx])
    · obtain ⟨k0, h1, h2, h3, h4 | h4 | h4⟩ := step_rentee hc hr o ho hk hr'
      · have := i2 k0 r h1 h4
        rw [h2, h3] at this; exact this
      · exact h4
      · obtain ⟨k1, h5, h6⟩ := i1 r h4
        rw [h1] at h5; simp at h5; subst h5
        rw [h2, h3] at h6; exact h6

-- a running contract with a list of accounts; no hook runs
example : let l := [Demo.mint1, Demo.by_ 1 (.rent (.create 0 (.fixed 10) (.manual (some [2])) true (.tokens 100) .none .none)),
      Demo.by_ 3 (.rent (.makeOffer 0 0)), Demo.by_ 2 (.rent (.makeOffer 0 0)), Demo.by_ 1 (.rent (.acceptOffer 0 2))]
    (∀ o ∈ l, o.Ok Demo.cfg) ∧ Spec.NoLapse Demo.cfg 0 Demo.w0 l ∧
    ((run Demo.cfg Demo.w0 l).rent.contracts.get 0).map (·.rentee) = some (some 2) := by
  refine ⟨by decide, ?_, by decide⟩
  intro l1 l2 r k e
  have : Op.hookRent ∈ l1 ++ .hookRent :: l2 := by simp
  rw [← e] at this
  simp at this

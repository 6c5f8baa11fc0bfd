import Verif.Props.Use
/-
Properties C67–C68: minting, and what the owner of a collection or marketplace can do with it.
-/
variable {c : Cfg} {w w' : World} {a : AccountId}
set_option maxRecDepth 10000

namespace Spec

/-- `a` owns collection `k`, which is open and not full -/
def HasRoom (c : Cfg) (w : World) (a : AccountId) (k : CollId) : Prop :=
  ∃ col, w.nft.colls.get k = some col ∧ col.owner = a ∧ col.closed = false ∧
    col.nfts.length < c.collLimit ∧ ∀ l, col.limit = some l → col.nfts.length < l

/-- the collections after NFT `n` joined `k` -/
def joined (colls : FMap CollId Coll) (n : NFTId) : Option CollId → FMap CollId Coll
  | none => colls
  | some k => match colls.get k with
    | none => colls
    | some col => colls.insert k { col with nfts := col.nfts ++ [n] }

/-- the NFT just minted by `a` -/
def minted (a : AccountId) (data : Data) (r : Permill) (k : Option CollId) (sb : Bool) : NFTData :=
  { owner := a, creator := a, offchain := data, coll := k, royalty := r,
    st := { capsule := false, listed := false, secret := false, delegated := false, soulbound := sb,
            syncSecret := false, rented := false, syncCapsule := false, transmission := false } }

end Spec

theorem Spec.HasRoom.push {k : Option CollId} {n : NFTId} (h : ∀ x, k = some x → Spec.HasRoom c w a x) :
    NftM.pushToColl c w a n k =
      .ok { w with nft := { w.nft with colls := Spec.joined w.nft.colls n k } } := by
  cases k with
  | none => rfl
  | some x =>
    obtain ⟨col, h1, h2, h3, h4, h5⟩ := h x rfl
    have h6 : col.nfts.length < NftM.collCap c col := by
      unfold NftM.collCap
      cases hl : col.limit with
      | none => exact h4
      | some l => exact h5 l hl
    simp [NftM.pushToColl, Spec.joined, h1, h2, h3, h4, h6, getOr, require, bind, Except.bind, pure,
      Except.pure]

theorem Spec.CanPay.create {v : Balance} (hpay : Spec.CanPay c w a (w.nft.fee + v))
    {k : Option CollId} (hk : ∀ x, k = some x → Spec.HasRoom c w a x) (hn : w.nft.nextNft + 1 ≤ U32MAX)
    (data : Data) (r : Permill) (sb : Bool) :
    ∃ b, w.bal.payFee c.ed a w.nft.fee = .ok b ∧ v + max c.ed (b.frozen a) ≤ b.freeOf a ∧
      NftM.createHelper c w a data r k sb = .ok { w with
        bal := b
        nfts := w.nfts.insert w.nft.nextNft (Spec.minted a data r k sb)
        nft := { w.nft with
          nextNft := w.nft.nextNft + 1
          colls := Spec.joined w.nft.colls w.nft.nextNft k } } := by
  obtain ⟨b, hb⟩ := Bal.payFee_pays (b := w.bal) (a := a) (ed := c.ed) (v := w.nft.fee)
    (by rw [Spec.canPay_iff] at hpay; omega)
  refine ⟨b, hb, Bal.payFee_left hpay hb, ?_⟩
  have h2 : NftM.pushToColl c (w.putBal b) a w.nft.nextNft k =
      .ok { (w.putBal b) with nft := { w.nft with colls := Spec.joined w.nft.colls w.nft.nextNft k } } :=
    Spec.HasRoom.push (w := w.putBal b) hk
  simp only [NftM.createHelper, hb, bind, Except.bind, pure, Except.pure]
  have h3 : (w.putBal b).nft.nextNft = w.nft.nextNft := rfl
  rw [h3, h2]
  simp [NftM.nextNftId, hn, expectSome, World.putBal, World.putNft, Spec.minted, bind, Except.bind, pure,
    Except.pure]

section
variable {k : Option CollId} (hk : ∀ x, k = some x → Spec.HasRoom c w a x)
  (hn : w.nft.nextNft + 1 ≤ U32MAX)
include hk hn

/-- Whoever can pay the fee can mint, in a collection of theirs that has room or in none. -/
theorem C67_nft (hpay : Spec.CanPay c w a w.nft.fee) (data : Data) (r : Permill) (sb : Bool) :
    ∃ b, Spec.PaidFee w.bal b a w.nft.fee ∧
      dispatch c (.nft (.createNft data r k sb)) (.signed a) w = .ok { w with
        bal := b
        nfts := w.nfts.insert w.nft.nextNft (Spec.minted a data r k sb)
        nft := { w.nft with
          nextNft := w.nft.nextNft + 1
          colls := Spec.joined w.nft.colls w.nft.nextNft k } } := by
  obtain ⟨b, h1, _, h2⟩ := Spec.CanPay.create (v := 0) hpay hk hn data r sb
  exact ⟨b, .of_pay h1, h2⟩

/-- Whoever can pay both fees can mint a secret NFT. -/
theorem C67_secret (hpay : Spec.CanPay c w a (w.nft.fee + w.nft.secretFee)) (data secret : Data)
    (r : Permill) (sb : Bool) :
    ∃ b, Spec.PaidFee w.bal b a (w.nft.fee + w.nft.secretFee) ∧
      dispatch c (.nft (.createSecret data secret r k sb)) (.signed a) w = .ok { w with
        bal := b
        nfts := (w.nfts.insert w.nft.nextNft (Spec.minted a data r k sb)).insert w.nft.nextNft
          (let d := Spec.minted a data r k sb
           { d with st := { d.st with secret := true, syncSecret := true } })
        nft := { w.nft with
          nextNft := w.nft.nextNft + 1
          colls := Spec.joined w.nft.colls w.nft.nextNft k
          secretData := w.nft.secretData.insert w.nft.nextNft secret } } := by
  obtain ⟨b, h1, h3, h2⟩ := Spec.CanPay.create hpay hk hn data r sb
  obtain ⟨b', h4⟩ := Bal.payFee_pays h3
  refine ⟨b', (Spec.PaidFee.of_pay h1).trans (.of_pay h4), ?_⟩
  have h5 : w.bal.balanceCheck a ((w.nft.fee + w.nft.secretFee) % (U128MAX + 1)) := by
    have := Nat.mod_le (w.nft.fee + w.nft.secretFee) (U128MAX + 1)
    rw [Spec.canPay_iff] at hpay
    exact ⟨by omega, Or.inr (by omega)⟩
  simp [dispatch, signedCall, NftM.call, NftM.createSecret, require, h5, h2, NftM.addSecretHelper, h4, getOr,
    Spec.minted, World.putBal, World.putNft, bind, Except.bind, pure, Except.pure]

/-- Whoever can pay both fees can mint a capsule. -/
theorem C67_capsule (hpay : Spec.CanPay c w a (w.nft.fee + w.nft.capsuleFee)) (data capsule : Data)
    (r : Permill) (sb : Bool) :
    ∃ b, Spec.PaidFee w.bal b a (w.nft.fee + w.nft.capsuleFee) ∧
      dispatch c (.nft (.createCapsule data capsule r k sb)) (.signed a) w = .ok { w with
        bal := b
        nfts := (w.nfts.insert w.nft.nextNft (Spec.minted a data r k sb)).insert w.nft.nextNft
          (let d := Spec.minted a data r k sb
           { d with st := { d.st with capsule := true, syncCapsule := true } })
        nft := { w.nft with
          nextNft := w.nft.nextNft + 1
          colls := Spec.joined w.nft.colls w.nft.nextNft k
          capsuleData := w.nft.capsuleData.insert w.nft.nextNft capsule } } := by
  obtain ⟨b, h1, h3, h2⟩ := Spec.CanPay.create hpay hk hn data r sb
  obtain ⟨b', h4⟩ := Bal.payFee_pays h3
  refine ⟨b', (Spec.PaidFee.of_pay h1).trans (.of_pay h4), ?_⟩
  have h5 : w.bal.balanceCheck a ((w.nft.fee + w.nft.capsuleFee) % (U128MAX + 1)) := by
    have := Nat.mod_le (w.nft.fee + w.nft.capsuleFee) (U128MAX + 1)
    rw [Spec.canPay_iff] at hpay
    exact ⟨by omega, Or.inr (by omega)⟩
  simp [dispatch, signedCall, NftM.call, NftM.createCapsule, require, h5, h2, NftM.toCapsuleHelper, h4, getOr,
    Spec.minted, World.putBal, World.putNft, bind, Except.bind, pure, Except.pure]

end

/-- Anybody can create a collection with any limit within the maximum. -/
theorem C67_coll (hn : w.nft.nextColl + 1 ≤ U32MAX) {l : Option Nat} (hl : ∀ x, l = some x → x ≤ c.collLimit)
    (data : Data) :
    dispatch c (.nft (.createColl data l)) (.signed a) w = .ok { w with nft := { w.nft with
      nextColl := w.nft.nextColl + 1
      colls := w.nft.colls.insert w.nft.nextColl ⟨a, data, [], l, false⟩ } } := by
  split_ok [NftM.call, NftM.createColl]
  exact ⟨fun x hx => hl x hx, _, if_pos hn, rfl⟩

/-- Whoever can pay the fee can create a marketplace. -/
theorem C67_market (hn : w.mkt.next + 1 ≤ U32MAX) (hpay : Spec.CanPay c w a w.mkt.fee) (kind : MktKind) :
    ∃ b, Spec.PaidFee w.bal b a w.mkt.fee ∧
      dispatch c (.mkt (.create kind)) (.signed a) w = .ok { w with
        bal := b
        mkt := { w.mkt with
          next := w.mkt.next + 1
          mkts := w.mkt.mkts.insert w.mkt.next ⟨a, kind, none, none, none, none, none⟩ } } := by
  obtain ⟨b, hb⟩ := Bal.payFee_pays hpay
  refine ⟨b, .of_pay hb, ?_⟩
  eval_ok [MktM.call, MktM.create, hn, hb, expectSome, World.putBal]

/-- account 1 has NFT 0 and the collection 0 with a limit of two -/
abbrev opened : List Op := [Demo.mint1, Demo.by_ 1 (.nft (.createColl [1] (some 2)))]

theorem opened_reach : Reach Demo.cfg (Demo.at_ opened) := Demo.reach _ (by decide)

theorem opened_room : Spec.HasRoom Demo.cfg (Demo.at_ opened) 1 0 :=
  ⟨_, rfl, rfl, rfl, by decide, by rintro _ ⟨⟩; decide⟩

theorem opened_rooms : ∀ x, some 0 = some x → Spec.HasRoom Demo.cfg (Demo.at_ opened) 1 x := by
  rintro _ ⟨⟩; exact opened_room

example : ∃ b, Spec.PaidFee (Demo.at_ opened).bal b 1 5 :=
  have ⟨b, h, _⟩ := C67_nft opened_rooms (by decide) (by unfold Spec.CanPay; decide) [3] ⟨7, by omega⟩ true
  ⟨b, h⟩

example : ∃ b, Spec.PaidFee (Demo.at_ opened).bal b 1 11 :=
  have ⟨b, h, _⟩ := C67_secret opened_rooms (by decide) (by unfold Spec.CanPay; decide) [3] [4]
    ⟨7, by omega⟩ true
  ⟨b, h⟩

example : ∃ b, Spec.PaidFee (Demo.at_ opened).bal b 1 12 :=
  have ⟨b, h, _⟩ := C67_capsule opened_rooms (by decide) (by unfold Spec.CanPay; decide) [3] [4]
    ⟨7, by omega⟩ true
  ⟨b, h⟩

example : ∃ w', dispatch Demo.cfg (.nft (.createColl [2] (some 3))) (.signed 4) (Demo.at_ opened) = .ok w' :=
  ⟨_, C67_coll (by decide) (by decide) [2]⟩

example : ∃ b, Spec.PaidFee (Demo.at_ opened).bal b 3 8 :=
  have ⟨b, h, _⟩ := C67_market (c := Demo.cfg) (w := Demo.at_ opened) (a := 3) (by decide)
    (by unfold Spec.CanPay; decide) .priv
  ⟨b, h⟩

/- C68 -/

section
variable {k : CollId} {col : Coll} (h : w.nft.colls.get k = some col)
include h

/-- The owner of a collection can close it for good. -/
theorem C68_close :
    dispatch c (.nft (.closeColl k)) (.signed col.owner) w = .ok { w with nft := { w.nft with
      colls := w.nft.colls.insert k { col with closed := true } } } := by
  eval_ok [NftM.call, NftM.closeColl, h]

/-- The owner of an open collection without a limit can set one that it does not exceed. -/
theorem C68_limit (h1 : col.limit = none) (h2 : col.closed = false) {l : Nat} (h3 : col.nfts.length ≤ l)
    (h4 : l ≤ c.collLimit) :
    dispatch c (.nft (.limitColl k l)) (.signed col.owner) w = .ok { w with nft := { w.nft with
      colls := w.nft.colls.insert k { col with limit := some l } } } := by
  eval_ok [NftM.call, NftM.limitColl, h, h1, h2, h3, h4]

/-- The owner of a collection can change its data. -/
theorem C68_data (data : Data) :
    dispatch c (.nft (.setCollData k data)) (.signed col.owner) w = .ok { w with nft := { w.nft with
      colls := w.nft.colls.insert k { col with offchain := data } } } := by
  eval_ok [NftM.call, NftM.setCollData, h]

omit h in
/-- The owner of a collection with room can add any NFT of theirs that is in none. -/
theorem C68_add (h : Spec.HasRoom c w a k) {n : NFTId} {d : NFTData} (hd : w.nfts.get n = some d)
    (ho : d.owner = a) (hk : d.coll = none) :
    dispatch c (.nft (.addToColl n k)) (.signed a) w = .ok { w with
      nfts := w.nfts.insert n { d with coll := some k }
      nft := { w.nft with colls := Spec.joined w.nft.colls n (some k) } } := by
  obtain ⟨col, h1, h2, h3, h4, h5⟩ := h
  have h6 : col.nfts.length < NftM.collCap c col := by
    unfold NftM.collCap
    cases hl : col.limit with
    | none => exact h4
    | some l => exact h5 l hl
  eval_ok [NftM.call, NftM.addToColl, Spec.joined, h1, h2, h3, h4, h6, hd, ho, hk, World.putNft]

end

section
variable {m : MktId} {k : Mkt} (h : w.mkt.mkts.get m = some k)
include h

/-- The owner of a marketplace can give it to anybody else. -/
theorem C68_owner {r : AccountId} (hr : r ≠ k.owner) :
    dispatch c (.mkt (.setOwner m r)) (.signed k.owner) w = .ok { w with mkt := { w.mkt with
      mkts := w.mkt.mkts.insert m { k with owner := r } } } := by
  eval_ok [MktM.call, MktM.setOwner, h, hr]

/-- The owner of a marketplace can open or close it to the public. -/
theorem C68_kind (x : MktKind) :
    dispatch c (.mkt (.setKind m x)) (.signed k.owner) w = .ok { w with mkt := { w.mkt with
      mkts := w.mkt.mkts.insert m { k with kind := x } } } := by
  eval_ok [MktM.call, MktM.setKind, h]

/-- The owner of a marketplace can change each of its settings, and only those named change. -/
theorem C68_config (c1 c2 : ConfigOp CompoundFee) (c3 : ConfigOp (List AccountId)) (c4 : ConfigOp Data)
    (c5 : ConfigOp (List CollId)) :
    dispatch c (.mkt (.setConfig m c1 c2 c3 c4 c5)) (.signed k.owner) w = .ok { w with mkt := { w.mkt with
      mkts := w.mkt.mkts.insert m ⟨k.owner, k.kind, Spec.configure k.commission c1,
        Spec.configure k.listing c2, Spec.configure k.accounts c3, Spec.configure k.offchain c4,
        Spec.configure k.colls c5⟩ } } := by
  have e : ∀ {α : Type} (x : Option α) (y : ConfigOp α), MktM.apply x y = Spec.configure x y := by
    intro α x y; cases y <;> rfl
  eval_ok [MktM.call, MktM.setConfig, h, e]

end

example : ∃ w', dispatch Demo.cfg (.nft (.closeColl 0)) (.signed 1) (Demo.at_ opened) = .ok w' :=
  ⟨_, C68_close (col := ⟨1, [1], [], some 2, false⟩) rfl⟩

example : ∃ w', dispatch Demo.cfg (.nft (.limitColl 0 3)) (.signed 1)
    (Demo.at_ [Demo.by_ 1 (.nft (.createColl [1] none))]) = .ok w' :=
  ⟨_, C68_limit (col := ⟨1, [1], [], none, false⟩) rfl rfl rfl (by decide) (by decide)⟩

example : ∃ w', dispatch Demo.cfg (.nft (.setCollData 0 [9])) (.signed 1) (Demo.at_ opened) = .ok w' :=
  ⟨_, C68_data (col := ⟨1, [1], [], some 2, false⟩) rfl [9]⟩

example : ∃ w', dispatch Demo.cfg (.nft (.addToColl 0 0)) (.signed 1) (Demo.at_ opened) = .ok w' :=
  ⟨_, C68_add (d := fresh) opened_room rfl rfl rfl⟩

example : ((Demo.at_ ready).mkt.mkts.get 0).map (·.owner) = some 3 ∧
    (dispatch Demo.cfg (.mkt (.setOwner 0 4)) (.signed 3) (Demo.at_ ready)).toOption.map
      (fun w => (w.mkt.mkts.get 0).map (·.owner)) = some (some 4) ∧
    (dispatch Demo.cfg (.mkt (.setKind 0 .priv)) (.signed 3) (Demo.at_ ready)).toOption.map
      (fun w => (w.mkt.mkts.get 0).map (·.kind)) = some (some .priv) ∧
    (dispatch Demo.cfg (.mkt (.setConfig 0 .remove .noop (.set [5]) .noop .noop)) (.signed 3)
      (Demo.at_ ready)).toOption.map (fun w => (w.mkt.mkts.get 0).map
        (fun k => (k.commission, k.listing, k.accounts))) = some (some (none, some (.flat 20), some [5])) := by
  decide

/-- the marketplace in `ready` -/
abbrev readyMkt : Mkt := ⟨3, .pub, some (.percentage ⟨100000, by omega⟩), some (.flat 20), none, none, none⟩

example := C68_owner (c := Demo.cfg) (w := Demo.at_ ready) (m := 0) (k := readyMkt) rfl (r := 4) (by decide)

example := C68_kind (c := Demo.cfg) (w := Demo.at_ ready) (m := 0) (k := readyMkt) rfl .priv

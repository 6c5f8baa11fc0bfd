import Verif.Conform.Base
/-
The tests of marketplace/src/tests/extrinsics.rs on the model.
-/
namespace Conform.Marketplace

/-- marketplace/src/tests/mock.rs 245-285: the constants -/
def c : Cfg := { cfg0 with ed := 1, collLimit := 10, shards := 5 }

/-- `ExtBuilder::new_build` with the fees of marketplace/src/tests/mock.rs 42-46 -/
def ext (l : List (AccountId × Balance)) : World :=
  let w := blank l
  { w with
    nft := { w.nft with fee := 10, secretFee := 75, capsuleFee := 100 }
    mkt := { w.mkt with fee := 100 } }

abbrev p0 : Permill := pm 0
abbrev p50 : Permill := pm 500000
abbrev p80 : Permill := pm 800000
abbrev p100 : Permill := pm 1000000

/-- accounts: ALICE 1, BOB 2, CHARLIE 3, DAVE 4 -/
abbrev by_ (a : AccountId) (x : MktM.Call) : Act := sg a (.mkt x)

/-- `prepare_tests` -/
def prep : List Act :=
  [sg 1 (.nft (.createColl [] none)), sg 1 (.nft (.createNft [] p0 (some 0) false)), by_ 1 (.create .pub),
   sg 2 (.nft (.createColl [] none)), sg 2 (.nft (.createNft [] p0 (some 1) false)), by_ 2 (.create .pub),
   by_ 3 (.create .pub)]

/-- ALICE, BOB and CHARLIE with 1000 each; 890, 890 and 900 are left after `prep` -/
def three : World := ext [(1, 1000), (2, 1000), (3, 1000)]

/-- `assert_noop!` of a signed call after the steps `l` -/
abbrev Bad (w : World) (l : List Act) (a : AccountId) (x : MktM.Call) (e : String) : Prop :=
  fails c w l (.signed a) (.mkt x) = some (.e e)

/-- `assert_ok!` of a signed call after the steps `l`, its last event, and what is seen afterwards -/
abbrev Good {α : Type} (w : World) (l : List Act) (a : AccountId) (x : MktM.Call) (e : Event)
    (f : World → α) (v : α) : Prop :=
  lastEvent c w l (.signed a) (.mkt x) = some e ∧ see c w (l ++ [by_ a x]) f = some v

/-- `set_marketplace_configuration` with only some fields set -/
abbrev conf (m : MktId) (commission : ConfigOp CompoundFee := .noop) (listing : ConfigOp CompoundFee := .noop)
    (accounts : ConfigOp (List AccountId) := .noop) (colls : ConfigOp (List CollId) := .noop) : MktM.Call :=
  .setConfig m commission listing accounts .noop colls

/-- owner of the NFT, its sale, free balances of the accounts 1 to 4 -/
abbrev sale0 (w : World) : Option AccountId × Option Sale × List Balance :=
  ((w.nfts.get 0).map (·.owner), w.mkt.sales.get 0, [free 1 w, free 2 w, free 3 w, free 4 w])

/-! `mod create_marketplace` -/

/-- `create_marketplace` -/
example : Good (ext [(1, 1000)]) ([]) 1 (.create .pub)
    (.mktCreated 0 1 .pub)
    (fun w => (w.mkt.mkts.get 0, free 1 w))
    (some ⟨1, .pub, none, none, none, none, none⟩, 900) := ⟨rfl, rfl⟩

/-- `insufficient_balance` -/
example : Bad (ext [(1, 1)]) ([]) 1 (.create .pub) "InsufficientBalance" := rfl

/-- `keep_alive` -/
example : Bad (ext [(1, 100)]) ([]) 1 (.create .pub) "LiquidityRestrictions/KeepAlive" := rfl

/-! `mod set_marketplace_owner` -/

/-- `set_marketplace_owner` -/
example : Good three (prep) 1 (.setOwner 0 2)
    (.mktOwnerSet 0 2)
    (fun w => (w.mkt.mkts.get 0).map (·.owner))
    (some 2) := ⟨rfl, rfl⟩

/-- `marketplace_not_found` -/
example : Bad three (prep) 1 (.setOwner 1001 2) "MarketplaceNotFound" := rfl

/-- `not_the_marketplace_owner` -/
example : Bad three (prep) 1 (.setOwner 1 2) "NotTheMarketplaceOwner" := rfl

/-- `cannot_transfer_marketplace_to_yourself` -/
example : Bad three (prep) 1 (.setOwner 0 1) "CannotTransferMarketplaceToYourself" := rfl

/-! `mod set_marketplace_kind` -/

/-- `set_marketplace_kind` -/
example : Good three (prep) 1 (.setKind 0 .priv)
    (.mktKindSet 0 .priv)
    (fun w => (w.mkt.mkts.get 0).map (·.kind))
    (some .priv) := ⟨rfl, rfl⟩

/-- `marketplace_not_found` -/
example : Bad three (prep) 1 (.setKind 1001 .priv) "MarketplaceNotFound" := rfl

/-- `not_the_marketplace_owner` -/
example : Bad three (prep) 1 (.setKind 1 .priv) "NotTheMarketplaceOwner" := rfl

/-! `mod set_marketplace_configuration` -/

/-- `set_marketplace_configuration` -/
example : see c three (prep ++ [by_ 1 (.setConfig 0 (.set (.percentage p100)) (.set (.percentage p100)) (.set [1, 2]) (.set [1]) (.set [1]))])
    (fun w => w.mkt.mkts.get 0) =
    some (some ⟨1, .pub, some (.percentage p100), some (.percentage p100), some [1, 2], some [1], some [1]⟩) := rfl

/-- `set_marketplace_configuration` -/
example : see c three (prep ++ [by_ 1 (.setConfig 0 (.set (.percentage p100)) (.set (.percentage p100)) (.set [1, 2]) (.set [1]) (.set [1])),
      by_ 1 (.setConfig 0 .noop .noop .noop .noop .noop)])
    (fun w => w.mkt.mkts.get 0) =
    some (some ⟨1, .pub, some (.percentage p100), some (.percentage p100), some [1, 2], some [1], some [1]⟩) := rfl

/-- `set_marketplace_configuration` -/
example : Good three
    (prep ++ [by_ 1 (.setConfig 0 (.set (.percentage p100)) (.set (.percentage p100)) (.set [1, 2]) (.set [1]) (.set [1]))]) 1
    (.setConfig 0 .remove .remove .remove .remove .remove)
    (.mktConfigSet 0 .remove .remove .remove .remove .remove)
    (fun w => w.mkt.mkts.get 0)
    (some ⟨1, .pub, none, none, none, none, none⟩) := ⟨rfl, rfl⟩

/-- `marketplace_not_found` -/
example : Bad three (prep) 1 (.setConfig 1001 .remove .remove .remove .remove .remove) "MarketplaceNotFound" := rfl

/-- `not_the_marketplace_owner` -/
example : Bad three (prep) 1 (.setConfig 1 .remove .remove .remove .remove .remove) "NotTheMarketplaceOwner" := rfl

/-! `mod set_marketplace_mint_fee` -/

/-- `set_marketplace_mint_fee` -/
example : see c three ([rt (.root (.mktFee 123))])
    (fun w => w.mkt.fee) =
    some 123 := rfl

/-- `bad_origin` -/
example : fails c three [] (.signed 1) (.root (.mktFee 123)) = some (.e "BadOrigin") := rfl

/-! `mod list_nft` -/

/-- `list_nft` -/
example : Good three (prep ++ []) 1 (.list 0 0 10)
    (.listed 0 0 10 none)
    (fun w => (w.mkt.sales.get 0, free 1 w))
    (some ⟨1, 0, 10, none⟩, 890) := ⟨rfl, rfl⟩

/-- `list_nft_listing_fee_flat` -/
example : Good three (prep ++ [by_ 2 (conf 1 (listing := .set (.flat 10)))]) 1 (.list 0 1 10)
    (.listed 0 1 10 none)
    (fun w => (w.mkt.sales.get 0, free 1 w))
    (some ⟨1, 1, 10, none⟩, 880) := ⟨rfl, rfl⟩

/-- `list_nft_listing_fee_percentage` -/
example : Good three (prep ++ [by_ 2 (conf 1 (listing := .set (.percentage p80)))]) 1 (.list 0 1 10)
    (.listed 0 1 10 none)
    (fun w => (w.mkt.sales.get 0, free 1 w))
    (some ⟨1, 1, 10, none⟩, 882) := ⟨rfl, rfl⟩

/-- `list_nft_private_account_whitelisted` -/
example : Good three (prep ++ [by_ 1 (.setKind 0 .priv), by_ 1 (conf 0 (accounts := .set [1]))]) 1 (.list 0 0 10)
    (.listed 0 0 10 none)
    (fun w => (w.mkt.sales.get 0, free 1 w))
    (some ⟨1, 0, 10, none⟩, 890) := ⟨rfl, rfl⟩

/-- `list_nft_private_collection_whitelisted` -/
example : Good three (prep ++ [by_ 1 (.setKind 0 .priv), by_ 1 (conf 0 (colls := .set [0]))]) 1 (.list 0 0 10)
    (.listed 0 0 10 none)
    (fun w => (w.mkt.sales.get 0, free 1 w))
    (some ⟨1, 0, 10, none⟩, 890) := ⟨rfl, rfl⟩

/-- `list_nft_private_account_and_collection_whitelisted` -/
example : Good three
    (prep ++ [by_ 1 (.setKind 0 .priv), by_ 1 (conf 0 (accounts := .set [1]) (colls := .set [0]))]) 1
    (.list 0 0 10)
    (.listed 0 0 10 none)
    (fun w => (w.mkt.sales.get 0, free 1 w))
    (some ⟨1, 0, 10, none⟩, 890) := ⟨rfl, rfl⟩

/-- `keep_alive` -/
example :
    Bad (ext [(1, 120), (2, 1000), (3, 1000)]) (prep ++ [by_ 2 (conf 1 (listing := .set (.flat 10)))]) 1
      (.list 0 1 10) "LiquidityRestrictions/KeepAlive" := rfl

/-- `nft_not_found` -/
example : Bad three (prep) 1 (.list 1001 0 10) "NFTNotFound" := rfl

/-- `not_the_nft_owner` -/
example : Bad three (prep) 1 (.list 1 0 10) "NotTheNFTOwner" := rfl

/-- `nft_already_listed` -/
example : Bad three (prep ++ [by_ 1 (.list 0 0 10)]) 1 (.list 0 0 10) "CannotListAlreadytListedNFTs" := rfl

/-- `cannot_list_not_synced_secret_nfts` -/
example :
    Bad three (prep ++ [setState 0 { secret := true, syncSecret := true }]) 1
      (.list 0 0 10) "CannotListNotSyncedSecretNFTs" := rfl

/-- `cannot_list_delegated_nfts` -/
example : Bad three (prep ++ [setState 0 { delegated := true }]) 1 (.list 0 0 10) "CannotListDelegatedNFTs" := rfl

/-- `cannot_list_not_created_soulbound_nfts` -/
example :
    Bad three (prep ++ [.poke fun w => match w.nfts.get 0 with
      | some d => w.putNft 0 { d with creator := 2, st := { d.st with soulbound := true } }
      | none => w]) 1
      (.list 0 0 10) "CannotListNotCreatedSoulboundNFTs" := rfl

/-- `cannot_list_rented_nfts` -/
example : Bad three (prep ++ [setState 0 { rented := true }]) 1 (.list 0 0 10) "CannotListRentedNFTs" := rfl

/-- `cannot_list_not_synced_capsules` -/
example :
    Bad three (prep ++ [setState 0 { capsule := true, syncCapsule := true }]) 1
      (.list 0 0 10) "CannotListNotSyncedCapsules" := rfl

/-- `cannot_list_nfts_in_transmission` -/
example :
    Bad three (prep ++ [setState 0 { transmission := true }]) 1
      (.list 0 0 10) "CannotListNFTsInTransmission" := rfl

/-- `marketplace_not_found` -/
example : Bad three (prep) 1 (.list 0 1001 10) "MarketplaceNotFound" := rfl

/-- `not_allowed_to_list_public_account_blacklist` -/
example : Bad three (prep ++ [by_ 1 (conf 0 (accounts := .set [1]))]) 1 (.list 0 0 10) "NotAllowedToList" := rfl

/-- `not_allowed_to_list_public_collection_blacklist` -/
example : Bad three (prep ++ [by_ 1 (conf 0 (colls := .set [0]))]) 1 (.list 0 0 10) "NotAllowedToList" := rfl

/-- `not_allowed_to_list_public_account_and_collection_blacklist` -/
example :
    Bad three (prep ++ [by_ 1 (conf 0 (accounts := .set [1]) (colls := .set [0]))]) 1
      (.list 0 0 10) "NotAllowedToList" := rfl

/-- `not_allowed_to_list_private_not_whitelist` -/
example : Bad three (prep ++ [by_ 1 (.setKind 0 .priv)]) 1 (.list 0 0 10) "NotAllowedToList" := rfl

/-- `price_too_low_for_commission_fee` -/
example :
    Bad three (prep ++ [by_ 1 (conf 0 (commission := .set (.flat 10000)))]) 1
      (.list 0 0 10) "PriceCannotCoverMarketplaceFee" := rfl

/-! `mod unlist_nft` -/

/-- `unlist_nft` -/
example : Good three (prep ++ [by_ 1 (.list 0 0 10)]) 1 (.unlist 0)
    (.unlisted 0)
    (fun w => w.mkt.sales.get 0)
    none := ⟨rfl, rfl⟩

/-- `nft_not_found` -/
example : Bad three (prep) 1 (.unlist 1001) "NFTNotFound" := rfl

/-- `not_the_nft_owner` -/
example : Bad three (prep ++ [by_ 2 (.list 1 0 0)]) 1 (.unlist 1) "NotTheNFTOwner" := rfl

/-- `nft_not_for_sale` -/
example : Bad three (prep) 1 (.unlist 0) "NFTNotForSale" := rfl

/-! `mod buy_nft` -/

/-- `buy_nft` -/
example : Good three (prep ++ [by_ 1 (.list 0 0 10)]) 2 (.buy 0 10)
    (.sold 0 0 2 10 0 0)
    (fun w => sale0 w)
    (some 2, none, [900, 880, 900, 0]) := ⟨rfl, rfl⟩

/-- `buy_nft_flat_commission` -/
example : Good three (prep ++ [by_ 3 (conf 2 (commission := .set (.flat 5))), by_ 1 (.list 0 2 10)]) 2 (.buy 0 10)
    (.sold 0 2 2 10 5 0)
    (fun w => sale0 w)
    (some 2, none, [895, 880, 905, 0]) := ⟨rfl, rfl⟩

/-- `buy_nft_percentage_commission` -/
example : Good three
    (prep ++ [by_ 3 (conf 2 (commission := .set (.percentage p80))), by_ 1 (.list 0 2 10)]) 2
    (.buy 0 10)
    (.sold 0 2 2 10 8 0)
    (fun w => sale0 w)
    (some 2, none, [892, 880, 908, 0]) := ⟨rfl, rfl⟩

/-- `buy_nft_royalty` -/
example : Good three
    (prep ++ [sg 1 (.nft (.setRoyalty 0 p80)), sg 1 (.nft (.transferNft 0 3)), by_ 3 (.list 0 1 10)]) 2
    (.buy 0 10)
    (.sold 0 1 2 10 0 8)
    (fun w => sale0 w)
    (some 2, none, [898, 880, 902, 0]) := ⟨rfl, rfl⟩

/-- `buy_nft_flat_commission_and_royalty` -/
example : Good three
    (prep ++ [by_ 3 (conf 2 (commission := .set (.flat 40))), sg 1 (.nft (.setRoyalty 0 p80)),
      sg 1 (.nft (.transferNft 0 4)), by_ 4 (.list 0 2 100)]) 2
    (.buy 0 100)
    (.sold 0 2 2 100 40 48)
    (fun w => sale0 w)
    (some 2, none, [938, 790, 940, 12]) := ⟨rfl, rfl⟩

/-- `buy_nft_percentage_commission_and_royalty` -/
example : Good three
    (prep ++ [by_ 3 (conf 2 (commission := .set (.percentage p50))), sg 1 (.nft (.setRoyalty 0 p80)),
      sg 1 (.nft (.transferNft 0 4)), by_ 4 (.list 0 2 100)]) 2
    (.buy 0 100)
    (.sold 0 2 2 100 50 40)
    (fun w => sale0 w)
    (some 2, none, [930, 790, 950, 10]) := ⟨rfl, rfl⟩

/-- `keep_alive` -/
example : Bad three (prep ++ [by_ 1 (.list 0 2 890)]) 2 (.buy 0 890) "LiquidityRestrictions/KeepAlive" := rfl

/-- `nft_not_found` -/
example : Bad three (prep) 1 (.buy 1001 10) "NFTNotFound" := rfl

/-- `nft_not_for_sale` -/
example : Bad three (prep) 1 (.buy 1 10) "NFTNotForSale" := rfl

/-- `cannot_buy_owned_nft` -/
example : Bad three (prep ++ [by_ 1 (.list 0 0 10)]) 1 (.buy 0 10) "CannotBuyOwnedNFT" := rfl

/-- `not_enough_balance_to_buy` -/
example : Bad three (prep ++ [by_ 1 (.list 0 0 10000)]) 2 (.buy 0 10000) "NotEnoughBalanceToBuy" := rfl

/-- `price_does_not_match` -/
example : Bad three (prep ++ [by_ 1 (.list 0 0 10000)]) 2 (.buy 0 8000) "PriceDoesNotMatch" := rfl

end Conform.Marketplace

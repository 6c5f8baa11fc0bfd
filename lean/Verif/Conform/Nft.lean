import Verif.Conform.Base
/-
The tests of nft/src/tests/extrinsics.rs and nft/src/tests/traits.rs on the model.
-/
namespace Conform.Nft

/-- nft/src/tests/mock.rs 253-276: the constants -/
def c : Cfg := { cfg0 with ed := 1, collLimit := 10, shards := 2, clusterSize := 2, teeList := 10 }

/-- `ExtBuilder::new_build`: mint fees 10, 75 and 100, nft/src/tests/mock.rs 31-50 -/
def ext (l : List (AccountId × Balance)) : World :=
  let w := blank l
  { w with
    nft := { w.nft with fee := 10, secretFee := 75, capsuleFee := 100 }
    tee := { w.tee with stakingAmount := 20, pool := 2000 } }

/-- `PERCENT_0`, `PERCENT_80`, `PERCENT_100` -/
abbrev p0 : Permill := pm 0
abbrev p80 : Permill := pm 800000
abbrev p100 : Permill := pm 1000000

/-- accounts: ALICE 1, BOB 2, CHARLIE 3, their enclaves 4, 5, 6 -/
abbrev by_ (a : AccountId) (x : NftM.Call) : Act := sg a (.nft x)

/-- `prepare_tests` -/
def prep : List Act :=
  [by_ 1 (.createNft [] p100 none false), by_ 1 (.createColl [] none),
   by_ 2 (.createNft [] p100 none false), by_ 2 (.createColl [] none)]

/-- `prepare_tee_for_tests`; the uri is "test" -/
def tees : List Act :=
  [.op (.era 1),
   sg 1 (.tee (.register 4 [116, 101, 115, 116])), sg 2 (.tee (.register 5 [116, 101, 115, 116])),
   sg 3 (.tee (.register 6 [116, 101, 115, 116])),
   rt (.root (.tee (.createCluster .pub))), rt (.root (.tee (.createCluster .pub))),
   rt (.root (.tee (.assign 1 0 0))), rt (.root (.tee (.assign 2 0 1))), rt (.root (.tee (.assign 3 1 2)))]

/-- ALICE and BOB with 1000 each -/
def two : World := ext [(1, 1000), (2, 1000)]
/-- CHARLIE too -/
def three : World := ext [(1, 1000), (2, 1000), (3, 1000)]

/-- `assert_noop!` of a signed call after the steps `l` -/
abbrev Bad (w : World) (l : List Act) (a : AccountId) (x : NftM.Call) (e : String) : Prop :=
  fails c w l (.signed a) (.nft x) = some (.e e)

/-- `assert_ok!` of a signed call after the steps `l`, its last event, and what is seen afterwards -/
abbrev Good {α : Type} (w : World) (l : List Act) (a : AccountId) (x : NftM.Call) (e : Event) (f : World → α) (v : α) :
    Prop :=
  lastEvent c w l (.signed a) (.nft x) = some e ∧ see c w (l ++ [by_ a x]) f = some v

/-- the state of ALICE's first NFT -/
abbrev st0 (w : World) : Option NFTState := (w.nfts.get 0).map (·.st)

/-! `mod create_nft` -/

/-- `create_nft` -/
example : Good (ext [(1, 1000)]) ([]) 1 (.createNft [] p100 none false)
    (.nftCreated 0 1 [] p100 none false 10) (fun w => (w.nfts.get 0, free 1 w))
    (some ⟨1, 1, [], none, p100, {}⟩, 990) := ⟨rfl, rfl⟩

/-- `create_nft_with_collection` -/
example : Good two (prep) 1 (.createNft [] p100 (some 0) false)
    (.nftCreated 2 1 [] p100 (some 0) false 10) (fun w => (w.nfts.get 2, free 1 w, (w.nft.colls.get 0).map (·.nfts)))
    (some ⟨1, 1, [], some 0, p100, {}⟩, 980, some [2]) := ⟨rfl, rfl⟩

/-- `insufficient_balance` -/
example : Bad (ext [(1, 1)]) ([]) 1 (.createNft [] p0 none false) "InsufficientBalance" := rfl

/-- `not_the_collection_owner` -/
example : Bad two (prep) 1 (.createNft [] p0 (some 1) false) "NotTheCollectionOwner" := rfl

/-- `collection_is_closed` -/
example : Bad two (prep ++ [by_ 1 (.closeColl 0)]) 1 (.createNft [] p0 (some 0) false) "CollectionIsClosed" := rfl

/-- `collection_has_reached_max` -/
example : Bad two (prep ++ List.replicate 10 (by_ 1 (.createNft [] p0 (some 0) false)))
    1 (.createNft [] p0 (some 0) false) "CollectionHasReachedLimit" := rfl

/-- `collection_has_reached_limit` -/
example : Bad two ([by_ 1 (.createColl [] (some 1)), by_ 1 (.createNft [] p0 (some 0) false)])
    1 (.createNft [] p0 (some 0) false) "CollectionHasReachedLimit" := rfl

/-- `keep_alive` -/
example : Bad (ext [(1, 20), (2, 1000)]) (prep) 1 (.createNft [] p0 none false) "LiquidityRestrictions/KeepAlive" := rfl

/-! `mod burn_nft` -/

/-- `burn_nft` -/
example : Good two (prep) 1 (.burnNft 0)
    (.nftBurned 0) (fun w => w.nfts.get 0)
    none := ⟨rfl, rfl⟩

/-- `burn_nft_in_collection` -/
example : Good two (prep ++ [by_ 1 (.addToColl 0 0)]) 1 (.burnNft 0)
    (.nftBurned 0) (fun w => (w.nfts.get 0, (w.nft.colls.get 0).map (·.nfts)))
    (none, some []) := ⟨rfl, rfl⟩

/-- `burn_synced_secret_nft`: the data is there before -/
example : see c two (prep ++ [by_ 1 (.addSecret 0 []), setState 0 { secret := true }]) (fun w => w.nft.secretData.get 0) =
    some (some []) := rfl

/-- `burn_synced_secret_nft` -/
example : Good two (prep ++ [by_ 1 (.addSecret 0 []), setState 0 { secret := true }]) 1 (.burnNft 0)
    (.nftBurned 0) (fun w => (w.nfts.get 0, w.nft.secretData.get 0))
    (none, none) := ⟨rfl, rfl⟩

/-- `burn_syncing_secret_nft`: data and share are there before -/
example : see c three (prep ++ tees ++ [by_ 1 (.addSecret 0 []), by_ 4 (.addSecretShard 0)])
    (fun w => (w.nft.secretData.get 0, (w.nft.secretShards.get 0).map (·.length))) = some (some [], some 1) := rfl

/-- `burn_syncing_secret_nft` -/
example : Good three (prep ++ tees ++ [by_ 1 (.addSecret 0 []), by_ 4 (.addSecretShard 0)]) 1 (.burnNft 0)
    (.nftBurned 0) (fun w => (w.nfts.get 0, w.nft.secretData.get 0, w.nft.secretShards.get 0))
    (none, none, none) := ⟨rfl, rfl⟩

/-- `burn_synced_capsule`: the data is there before -/
example : see c two (prep ++ [by_ 1 (.toCapsule 0 []), setState 0 { capsule := true, syncSecret := true }])
    (fun w => w.nft.capsuleData.get 0) = some (some []) := rfl

/-- `burn_synced_capsule` -/
example : Good two (prep ++ [by_ 1 (.toCapsule 0 []), setState 0 { capsule := true, syncSecret := true }]) 1 (.burnNft 0)
    (.nftBurned 0) (fun w => (w.nfts.get 0, w.nft.capsuleData.get 0))
    (none, none) := ⟨rfl, rfl⟩

/-- `burn_syncing_capsule`: data and share are there before -/
example : see c three (prep ++ tees ++ [by_ 1 (.toCapsule 0 []), by_ 4 (.addCapsuleShard 0)])
    (fun w => (w.nft.capsuleData.get 0, (w.nft.capsuleShards.get 0).map (·.length))) = some (some [], some 1) := rfl

/-- `burn_syncing_capsule` -/
example : Good three (prep ++ tees ++ [by_ 1 (.toCapsule 0 []), by_ 4 (.addCapsuleShard 0)]) 1 (.burnNft 0)
    (.nftBurned 0) (fun w => (w.nfts.get 0, w.nft.capsuleData.get 0, w.nft.capsuleShards.get 0))
    (none, none, none) := ⟨rfl, rfl⟩

/-- `nft_not_found` -/
example : Bad two ([]) 1 (.burnNft 0) "NFTNotFound" := rfl

/-- `not_the_nft_owner` -/
example : Bad two (prep) 2 (.burnNft 0) "NotTheNFTOwner" := rfl

/-- `cannot_burn_listed_nfts` -/
example : Bad two (prep ++ [setState 0 { listed := true }]) 1 (.burnNft 0) "CannotBurnListedNFTs" := rfl

/-- `cannot_burn_delegated_nfts` -/
example : Bad two (prep ++ [by_ 1 (.delegateNft 0 (some 2))]) 1 (.burnNft 0) "CannotBurnDelegatedNFTs" := rfl

/-- `cannot_burn_rented_nfts` -/
example : Bad two (prep ++ [setState 0 { rented := true }]) 1 (.burnNft 0) "CannotBurnRentedNFTs" := rfl

/-- `cannot_burn_nfts_in_transmission` -/
example : Bad two (prep ++ [setState 0 { transmission := true }]) 1 (.burnNft 0) "CannotBurnNFTsInTransmission" := rfl

/-! `mod transfer_nft` -/

/-- `transfer_nft` -/
example : Good two (prep) 1 (.transferNft 0 2)
    (.nftTransferred 0 1 2) (fun w => (w.nfts.get 0).map (fun d => (d.owner, d.creator)))
    (some (2, 1)) := ⟨rfl, rfl⟩

/-- `nft_not_found` -/
example : Bad two (prep) 1 (.transferNft 1001 2) "NFTNotFound" := rfl

/-- `not_the_nft_owner` -/
example : Bad two (prep) 1 (.transferNft 1 2) "NotTheNFTOwner" := rfl

/-- `cannot_transfer_nfts_to_yourself` -/
example : Bad two (prep) 1 (.transferNft 0 1) "CannotTransferNFTsToYourself" := rfl

/-- `cannot_transfer_listed_nfts` -/
example : Bad two (prep ++ [setState 0 { listed := true }]) 1 (.transferNft 0 2) "CannotTransferListedNFTs" := rfl

/-- `cannot_transfer_delegated_nfts` -/
example : Bad two (prep ++ [by_ 1 (.delegateNft 0 (some 2))]) 1 (.transferNft 0 2) "CannotTransferDelegatedNFTs" := rfl

/-- `cannot_transfer_not_created_soulbound_nfts` -/
example : Bad two (prep ++ [by_ 1 (.createNft [] p0 none true),
      .poke fun w => match w.nfts.get 2 with | some d => w.putNft 2 { d with creator := 2 } | none => w]) 1 (.transferNft 2 2) "CannotTransferNotCreatedSoulboundNFTs" := rfl

/-- `cannot_transfer_not_synced_secret_nfts` -/
example : Bad two (prep ++ [setState 0 { secret := true, syncSecret := true }])
    1 (.transferNft 0 2) "CannotTransferNotSyncedSecretNFTs" := rfl

/-- `cannot_transfer_rented_nfts` -/
example : Bad two (prep ++ [setState 0 { rented := true }]) 1 (.transferNft 0 2) "CannotTransferRentedNFTs" := rfl

/-- `cannot_transfer_not_synced_capsules` -/
example : Bad two (prep ++ [setState 0 { capsule := true, syncCapsule := true }])
    1 (.transferNft 0 2) "CannotTransferNotSyncedCapsules" := rfl

/-- `cannot_transfer_nfts_in_transmission` -/
example : Bad two (prep ++ [setState 0 { transmission := true }])
    1 (.transferNft 0 2) "CannotTransferNFTsInTransmission" := rfl

/-! `mod delegate_nft` -/

/-- `delegate_nft` -/
example : Good two (prep) 1 (.delegateNft 0 (some 2))
    (.nftDelegated 0 (some 2)) (fun w => (w.nfts.get 0, w.nft.deleg.get 0))
    (some ⟨1, 1, [], none, p100, { delegated := true }⟩, some 2) := ⟨rfl, rfl⟩

/-- `delegate_nft_to_none` -/
example : Good two (prep ++ [by_ 1 (.delegateNft 0 (some 2))]) 1 (.delegateNft 0 none)
    (.nftDelegated 0 none) (fun w => (w.nfts.get 0, w.nft.deleg.get 0))
    (some ⟨1, 1, [], none, p100, {}⟩, none) := ⟨rfl, rfl⟩

/-- `nft_not_found` -/
example : Bad two (prep) 1 (.delegateNft 1001 none) "NFTNotFound" := rfl

/-- `not_the_nft_owner` -/
example : Bad two (prep) 1 (.delegateNft 1 none) "NotTheNFTOwner" := rfl

/-- `cannot_delegate_listed_nfts` -/
example : Bad two (prep ++ [setState 0 { listed := true }]) 1 (.delegateNft 0 none) "CannotDelegateListedNFTs" := rfl

/-- `cannot_delegate_rented_nfts` -/
example : Bad two (prep ++ [setState 0 { rented := true }]) 1 (.delegateNft 0 none) "CannotDelegateRentedNFTs" := rfl

/-- `cannot_delegate_syncing_nfts` -/
example : Bad two (prep ++ [setState 0 { syncSecret := true }])
    1 (.delegateNft 0 none) "CannotDelegateSyncingNFTs" := rfl

/-- `cannot_delegate_syncing_capsules` -/
example : Bad two (prep ++ [setState 0 { capsule := true, syncCapsule := true }])
    1 (.delegateNft 0 none) "CannotDelegateSyncingCapsules" := rfl

/-- `cannot_delegate_nfts_in_transmission` -/
example : Bad two (prep ++ [setState 0 { transmission := true }])
    1 (.delegateNft 0 none) "CannotDelegateNFTsInTransmission" := rfl

/-! `mod set_royalty` -/

/-- `set_royalty` -/
example : Good two (prep) 1 (.setRoyalty 0 p80)
    (.nftRoyaltySet 0 p80) (fun w => w.nfts.get 0)
    (some ⟨1, 1, [], none, p80, {}⟩) := ⟨rfl, rfl⟩

/-- `nft_not_found` -/
example : Bad two (prep) 1 (.setRoyalty 1001 p80) "NFTNotFound" := rfl

/-- `not_the_owner` -/
example : Bad two (prep) 1 (.setRoyalty 1 p80) "NotTheNFTOwner" := rfl

/-- `not_the_creator` -/
example : Bad two (prep ++ [by_ 2 (.transferNft 1 1)]) 1 (.setRoyalty 1 p80) "NotTheNFTCreator" := rfl

/-- `cannot_set_royalty_for_listed_nfts` -/
example : Bad two (prep ++ [setState 0 { listed := true }]) 1 (.setRoyalty 0 p80) "CannotSetRoyaltyForListedNFTs" := rfl

/-- `cannot_set_royalty_for_delegated_nfts` -/
example : Bad two (prep ++ [by_ 1 (.delegateNft 0 (some 2))])
    1 (.setRoyalty 0 p80) "CannotSetRoyaltyForDelegatedNFTs" := rfl

/-- `cannot_set_royalty_for_rented_nfts` -/
example : Bad two (prep ++ [setState 0 { rented := true }]) 1 (.setRoyalty 0 p80) "CannotSetRoyaltyForRentedNFTs" := rfl

/-- `cannot_set_royalty_for_syncing_nfts` -/
example : Bad two (prep ++ [setState 0 { syncSecret := true }])
    1 (.setRoyalty 0 p80) "CannotSetRoyaltyForSyncingNFTs" := rfl

/-- `cannot_set_royalty_for_syncing_capsules` -/
example : Bad two (prep ++ [setState 0 { capsule := true, syncCapsule := true }])
    1 (.setRoyalty 0 p80) "CannotSetRoyaltyForSyncingCapsules" := rfl

/-- `cannot_set_royalty_for_nfts_in_transmission` -/
example : Bad two (prep ++ [setState 0 { transmission := true }])
    1 (.setRoyalty 0 p80) "CannotSetRoyaltyForNFTsInTransmission" := rfl

/-! `mod set_nft_mint_fee` -/

/-- `set_nft_mint_fee` -/
example : lastEvent c two prep .root (.root (.nftFee 20)) = some (.nftMintFeeSet 20) ∧
    see c two (prep ++ [rt (.root (.nftFee 20))]) (fun w => w.nft.fee) = some 20 := ⟨rfl, rfl⟩

/-- `bad_origin` -/
example : fails c (ext [(1, 10000)]) [] (.signed 1) (.root (.nftFee 20)) = some (.e "BadOrigin") := rfl

/-! `mod create_collection` -/

/-- `create_collection` -/
example : Good two ([]) 1 (.createColl [] (some 5))
    (.collCreated 0 1 [] (some 5)) (fun w => w.nft.colls.get 0)
    (some ⟨1, [], [], some 5, false⟩) := ⟨rfl, rfl⟩

/-- `collection_limit_is_too_high` -/
example : Bad two ([]) 1 (.createColl [] (some 11)) "CollectionLimitExceededMaximumAllowed" := rfl

/-! `mod burn_collection` -/

/-- `burn_collection` -/
example : Good two (prep) 1 (.burnColl 0)
    (.collBurned 0) (fun w => w.nft.colls.get 0)
    none := ⟨rfl, rfl⟩

/-- `collection_not_found` -/
example : Bad two (prep) 1 (.burnColl 1001) "CollectionNotFound" := rfl

/-- `not_the_collection_owner` -/
example : Bad two (prep) 1 (.burnColl 1) "NotTheCollectionOwner" := rfl

/-- `collection_is_not_empty` -/
example : Bad two (prep ++ [by_ 1 (.addToColl 0 0)]) 1 (.burnColl 0) "CollectionIsNotEmpty" := rfl

/-! `mod close_collection` -/

/-- `close_collection` -/
example : Good two (prep) 1 (.closeColl 0)
    (.collClosed 0) (fun w => (w.nft.colls.get 0).map (·.closed))
    (some true) := ⟨rfl, rfl⟩

/-- `collection_not_found` -/
example : Bad two (prep) 1 (.closeColl 1001) "CollectionNotFound" := rfl

/-- `not_the_collection_owner` -/
example : Bad two (prep) 1 (.closeColl 1) "NotTheCollectionOwner" := rfl

/-! `mod limit_collection` -/

/-- `limit_collection` -/
example : Good two (prep) 1 (.limitColl 0 1)
    (.collLimited 0 1) (fun w => (w.nft.colls.get 0).map (·.limit))
    (some (some 1)) := ⟨rfl, rfl⟩

/-- `collection_not_found` -/
example : Bad two (prep) 1 (.limitColl 1001 1) "CollectionNotFound" := rfl

/-- `not_the_collection_owner` -/
example : Bad two (prep) 1 (.limitColl 1 1) "NotTheCollectionOwner" := rfl

/-- `collection_limit_already_set` -/
example : Bad two (prep ++ [by_ 1 (.limitColl 0 1)]) 1 (.limitColl 0 2) "CollectionLimitAlreadySet" := rfl

/-- `collection_is_closed` -/
example : Bad two (prep ++ [by_ 1 (.closeColl 0)]) 1 (.limitColl 0 1) "CollectionIsClosed" := rfl

/-- `collection_nfts_number_greater_than_limit` -/
example : Bad two (prep ++ [by_ 1 (.addToColl 0 0), by_ 1 (.createNft [] p100 (some 0) false)])
    1 (.limitColl 0 1) "CollectionHasTooManyNFTs" := rfl

/-- `collection_limit_is_too_high` -/
example : Bad two (prep) 1 (.limitColl 0 11) "CollectionLimitExceededMaximumAllowed" := rfl

/-! `mod add_nft_to_collection` -/

/-- `add_nft_to_collection` -/
example : Good two (prep) 1 (.addToColl 0 0)
    (.nftAddedToColl 0 0) (fun w => ((w.nfts.get 0).map (·.coll), w.nft.colls.get 0))
    (some (some 0), some ⟨1, [], [0], none, false⟩) := ⟨rfl, rfl⟩

/-- `collection_not_found` -/
example : Bad two (prep) 1 (.addToColl 0 1001) "CollectionNotFound" := rfl

/-- `not_the_collection_owner` -/
example : Bad two (prep) 1 (.addToColl 0 1) "NotTheCollectionOwner" := rfl

/-- `collection_is_closed` -/
example : Bad two (prep ++ [by_ 1 (.closeColl 0)]) 1 (.addToColl 0 0) "CollectionIsClosed" := rfl

/-- `collection_has_reached_max` -/
example : Bad two (prep ++ List.replicate 10 (by_ 1 (.createNft [] p0 (some 0) false)))
    1 (.addToColl 0 0) "CollectionHasReachedLimit" := rfl

/-- `collection_has_reached_limit` -/
example : Bad two (prep ++ by_ 1 (.limitColl 0 5) :: List.replicate 5 (by_ 1 (.createNft [] p0 (some 0) false)))
    1 (.addToColl 0 0) "CollectionHasReachedLimit" := rfl

/-- `nft_not_found` -/
example : Bad two (prep) 1 (.addToColl 1001 0) "NFTNotFound" := rfl

/-- `not_the_nft_owner` -/
example : Bad two (prep) 1 (.addToColl 1 0) "NotTheNFTOwner" := rfl

/-- `nft_belong_to_a_collection` -/
example : Bad two (prep ++ [by_ 1 (.addToColl 0 0), by_ 1 (.createColl [] none)])
    1 (.addToColl 0 2) "NFTBelongToACollection" := rfl

/-! `mod add_secret` -/

/-- `add_secret` -/
example : Good two (prep) 1 (.addSecret 0 [])
    (.secretAdded 0 []) (fun w => (st0 w, w.nft.secretData.get 0))
    (some { secret := true, syncSecret := true }, some []) := ⟨rfl, rfl⟩

/-- `nft_not_found` -/
example : Bad two (prep) 1 (.addSecret 1001 []) "NFTNotFound" := rfl

/-- `not_the_nft_owner` -/
example : Bad two (prep) 1 (.addSecret 1 []) "NotTheNFTOwner" := rfl

/-- `cannot_add_secret_to_listed_nfts` -/
example : Bad two (prep ++ [setState 0 { listed := true }]) 1 (.addSecret 0 []) "CannotAddSecretToListedNFTs" := rfl

/-- `cannot_add_secret_to_secret_nfts` -/
example : Bad two (prep ++ [setState 0 { secret := true }]) 1 (.addSecret 0 []) "CannotAddSecretToSecretNFTs" := rfl

/-- `cannot_add_secret_to_rented_nfts` -/
example : Bad two (prep ++ [setState 0 { rented := true }]) 1 (.addSecret 0 []) "CannotAddSecretToRentedNFTs" := rfl

/-- `cannot_add_secret_to_delegated_nfts` -/
example : Bad two (prep ++ [setState 0 { delegated := true }])
    1 (.addSecret 0 []) "CannotAddSecretToDelegatedNFTs" := rfl

/-- `cannot_add_secret_to_syncing_capsules` -/
example : Bad two (prep ++ [setState 0 { capsule := true, syncCapsule := true }])
    1 (.addSecret 0 []) "CannotAddSecretToSyncingCapsules" := rfl

/-- `cannot_add_secret_to_nfts_in_transmission` -/
example : Bad two (prep ++ [setState 0 { transmission := true }])
    1 (.addSecret 0 []) "CannotAddSecretToNFTsInTransmission" := rfl

/-- `not_enough_balance` -/
example : Bad two (prep ++ [.poke fun w => w.putBal (w.bal.setFree 1 0)])
    1 (.addSecret 0 []) "InsufficientBalance" := rfl

/-! `mod create_secret_nft` -/

/-- `create_secret_nft` -/
example : lastEvents c (ext [(1, 1000)]) [] (.call (.signed 1) (.nft (.createSecret [] [] p100 none false))) =
    some [.nftCreated 0 1 [] p100 none false 10, .secretAdded 0 []] := rfl

/-- `create_secret_nft` -/
example : Good (ext [(1, 1000)]) ([]) 1 (.createSecret [] [] p100 none false)
    (.secretAdded 0 []) (fun w => (w.nfts.get 0, free 1 w, w.nft.secretData.get 0))
    (some ⟨1, 1, [], none, p100, { secret := true, syncSecret := true }⟩, 915, some []) := ⟨rfl, rfl⟩

/-- `insufficient_balance` -/
example : Bad (ext [(1, 11)]) ([]) 1 (.createSecret [] [] p0 none false) "InsufficientBalance" := rfl

/-- `keep_alive` -/
example : Bad (ext [(1, 95), (2, 1000)]) (prep) 1 (.createSecret [] [] p0 none false) "LiquidityRestrictions/KeepAlive" := rfl

/-! `mod add_secret_shard` -/

/-- `add_secret_shard` -/
example : Good three (prep ++ tees ++ [by_ 1 (.addSecret 0 [])]) 4 (.addSecretShard 0)
    (.shardAdded 0 4) (fun w => (st0 w, w.nft.secretShards.get 0))
    (some { secret := true, syncSecret := true }, some [(0, 1)]) := ⟨rfl, rfl⟩

/-- `add_last_secret_shard` -/
example : lastEvents c three (prep ++ tees ++ [by_ 1 (.addSecret 0 [])]) (.call (.signed 4) (.nft (.addSecretShard 0))) = some [.shardAdded 0 4] := rfl

/-- `add_last_secret_shard` -/
example : Good three (prep ++ tees ++ [by_ 1 (.addSecret 0 []), by_ 4 (.addSecretShard 0)]) 5 (.addSecretShard 0)
    (.secretSynced 0) (fun w => (st0 w, w.nft.secretShards.get 0))
    (some { secret := true }, none) := ⟨rfl, rfl⟩

/-- `not_a_registered_enclave` -/
example : Bad two (prep ++ [by_ 1 (.addSecret 0 [])]) 1 (.addSecretShard 0) "NotARegisteredEnclave" := rfl

/-- `nft_not_found` -/
example : Bad three (prep ++ tees) 4 (.addSecretShard 1001) "NFTNotFound" := rfl

/-- `share_not_from_valid_cluster` -/
example : Bad three (prep ++ tees ++ [by_ 1 (.addSecret 0 []), by_ 4 (.addSecretShard 0)])
    6 (.addSecretShard 0) "ShareNotFromValidCluster" := rfl

/-- `nft_is_not_secret` -/
example : Bad three (prep ++ tees) 4 (.addSecretShard 0) "NFTIsNotSecret" := rfl

/-- `nft_already_synced` -/
example : Bad three (prep ++ tees ++ [by_ 1 (.addSecret 0 []), by_ 4 (.addSecretShard 0), by_ 5 (.addSecretShard 0)])
    4 (.addSecretShard 0) "NFTAlreadySynced" := rfl

/-- `enclave_already_added_shard` -/
example : Bad three (prep ++ tees ++ [by_ 1 (.addSecret 0 []), by_ 4 (.addSecretShard 0)])
    4 (.addSecretShard 0) "EnclaveAlreadyAddedShard" := rfl

/-! `mod set_secret_nft_mint_fee` -/

/-- `set_secret_nft_mint_fee` -/
example : lastEvent c two prep .root (.root (.secretFee 150)) = some (.secretFeeSet 150) ∧
    see c two (prep ++ [rt (.root (.secretFee 150))]) (fun w => w.nft.secretFee) = some 150 := ⟨rfl, rfl⟩

/-- `bad_origin` -/
example : fails c (ext [(1, 10000)]) [] (.signed 1) (.root (.secretFee 150)) = some (.e "BadOrigin") := rfl

/-! `mod convert_to_capsule` -/

/-- `convert_to_capsule` -/
example : Good two (prep) 1 (.toCapsule 0 [])
    (.toCapsule 0 []) (fun w => (st0 w, w.nft.capsuleData.get 0))
    (some { capsule := true, syncCapsule := true }, some []) := ⟨rfl, rfl⟩

/-- `nft_not_found` -/
example : Bad two (prep) 1 (.toCapsule 1001 []) "NFTNotFound" := rfl

/-- `not_the_nft_owner` -/
example : Bad two (prep) 1 (.toCapsule 1 []) "NotTheNFTOwner" := rfl

/-- `cannot_convert_listed_nfts` -/
example : Bad two (prep ++ [setState 0 { listed := true }]) 1 (.toCapsule 0 []) "CannotConvertListedNFTs" := rfl

/-- `cannot_convert_capsules` -/
example : Bad two (prep ++ [setState 0 { capsule := true }]) 1 (.toCapsule 0 []) "CannotConvertCapsules" := rfl

/-- `cannot_convert_rented_nfts` -/
example : Bad two (prep ++ [setState 0 { rented := true }]) 1 (.toCapsule 0 []) "CannotConvertRentedNFTs" := rfl

/-- `cannot_convert_delegated_nfts` -/
example : Bad two (prep ++ [setState 0 { delegated := true }]) 1 (.toCapsule 0 []) "CannotConvertDelegatedNFTs" := rfl

/-- `cannot_convert_syncing_nfts` -/
example : Bad two (prep ++ [setState 0 { syncSecret := true }]) 1 (.toCapsule 0 []) "CannotConvertSyncingNFTs" := rfl

/-- `cannot_convert_nfts_in_transmission` -/
example : Bad two (prep ++ [setState 0 { transmission := true }])
    1 (.toCapsule 0 []) "CannotConvertNFTsInTransmission" := rfl

/-- `not_enough_balance` -/
example : Bad two (prep ++ [.poke fun w => w.putBal (w.bal.setFree 1 0)])
    1 (.toCapsule 0 []) "InsufficientBalance" := rfl

/-! `mod create_capsule` -/

/-- `create_capsule` -/
example : lastEvents c (ext [(1, 1000)]) [] (.call (.signed 1) (.nft (.createCapsule [] [] p100 none false))) =
    some [.nftCreated 0 1 [] p100 none false 10, .toCapsule 0 []] := rfl

/-- `create_capsule` -/
example : Good (ext [(1, 1000)]) ([]) 1 (.createCapsule [] [] p100 none false)
    (.toCapsule 0 []) (fun w => (w.nfts.get 0, free 1 w, w.nft.capsuleData.get 0))
    (some ⟨1, 1, [], none, p100, { capsule := true, syncCapsule := true }⟩, 890, some []) := ⟨rfl, rfl⟩

/-- `insufficient_balance` -/
example : Bad (ext [(1, 11)]) ([]) 1 (.createCapsule [] [] p0 none false) "InsufficientBalance" := rfl

/-- `keep_alive` -/
example : Bad (ext [(1, 120), (2, 1000)]) (prep) 1 (.createCapsule [] [] p0 none false) "LiquidityRestrictions/KeepAlive" := rfl

/-! `mod set_capsule_offchaindata` -/

/-- `set_capsule_offchaindata` -/
example : Good two (prep ++ [by_ 1 (.toCapsule 0 []), setState 0 { capsule := true }]) 1 (.setCapsuleData 0 [])
    (.capsuleDataSet 0 []) (fun w => (st0 w, w.nft.capsuleData.get 0))
    (some { capsule := true }, some []) := ⟨rfl, rfl⟩

/-- `nft_not_found` -/
example : Bad two (prep) 1 (.setCapsuleData 1001 []) "NFTNotFound" := rfl

/-- `not_the_nft_owner` -/
example : Bad two (prep) 1 (.setCapsuleData 1 []) "NotTheNFTOwner" := rfl

/-- `nft_is_not_capsule` -/
example : Bad two (prep) 1 (.setCapsuleData 0 []) "NFTIsNotCapsule" := rfl

/-- `cannot_set_offchain_data_for_listed_nfts` -/
example : Bad two (prep ++ [setState 0 { capsule := true, listed := true }])
    1 (.setCapsuleData 0 []) "CannotSetOffchainDataForListedNFTs" := rfl

/-- `cannot_set_offchain_data_for_rented_nfts` -/
example : Bad two (prep ++ [setState 0 { capsule := true, rented := true }])
    1 (.setCapsuleData 0 []) "CannotSetOffchainDataForRentedNFTs" := rfl

/-- `cannot_set_offchain_data_for_delegated_nfts` -/
example : Bad two (prep ++ [setState 0 { capsule := true, delegated := true }])
    1 (.setCapsuleData 0 []) "CannotSetOffchainDataForDelegatedNFTs" := rfl

/-- `cannot_set_offchain_data_for_syncing_nfts` -/
example : Bad two (prep ++ [setState 0 { capsule := true, syncSecret := true }])
    1 (.setCapsuleData 0 []) "CannotSetOffchainDataForSyncingNFTs" := rfl

/-- `cannot_set_offchain_data_for_syncing_capsules` -/
example : Bad two (prep ++ [setState 0 { capsule := true, syncCapsule := true }])
    1 (.setCapsuleData 0 []) "CannotSetOffchainDataForSyncingCapsules" := rfl

/-! `mod set_capsule_mint_fee` -/

/-- `set_capsule_mint_fee` -/
example : lastEvent c two prep .root (.root (.capsuleFee 150)) = some (.capsuleFeeSet 150) ∧
    see c two (prep ++ [rt (.root (.capsuleFee 150))]) (fun w => w.nft.capsuleFee) = some 150 := ⟨rfl, rfl⟩

/-- `bad_origin` -/
example : fails c (ext [(1, 10000)]) [] (.signed 1) (.root (.capsuleFee 150)) = some (.e "BadOrigin") := rfl

/-! `mod add_capsule_shard` -/

/-- `add_capsule_shard` -/
example : Good three (prep ++ tees ++ [by_ 1 (.toCapsule 0 [])]) 4 (.addCapsuleShard 0)
    (.capsuleShardAdded 0 4) (fun w => (st0 w, w.nft.capsuleShards.get 0))
    (some { capsule := true, syncCapsule := true }, some [(0, 1)]) := ⟨rfl, rfl⟩

/-- `add_last_secret_shard` -/
example : Good three (prep ++ tees ++ [by_ 1 (.toCapsule 0 []), by_ 4 (.addCapsuleShard 0)]) 5 (.addCapsuleShard 0)
    (.capsuleSynced 0) (fun w => (st0 w, w.nft.capsuleShards.get 0))
    (some { capsule := true }, none) := ⟨rfl, rfl⟩

/-- `not_a_registered_enclave` -/
example : Bad two (prep ++ [by_ 1 (.toCapsule 0 [])]) 1 (.addCapsuleShard 0) "NotARegisteredEnclave" := rfl

/-- `nft_not_found` -/
example : Bad three (prep ++ tees) 4 (.addCapsuleShard 1001) "NFTNotFound" := rfl

/-- `nft_is_not_capsule` -/
example : Bad three (prep ++ tees) 4 (.addCapsuleShard 0) "NFTIsNotCapsule" := rfl

/-- `nft_already_synced` -/
example : Bad three (prep ++ tees ++ [by_ 1 (.toCapsule 0 []), by_ 4 (.addCapsuleShard 0), by_ 5 (.addCapsuleShard 0)])
    4 (.addCapsuleShard 0) "NFTAlreadySynced" := rfl

/-- `share_not_from_valid_cluster` -/
example : Bad three (prep ++ tees ++ [by_ 1 (.toCapsule 0 []), by_ 4 (.addCapsuleShard 0)])
    6 (.addCapsuleShard 0) "ShareNotFromValidCluster" := rfl

/-- `enclave_already_added_shard` -/
example : Bad three (prep ++ tees ++ [by_ 1 (.toCapsule 0 []), by_ 4 (.addCapsuleShard 0)])
    4 (.addCapsuleShard 0) "EnclaveAlreadyAddedShard" := rfl

/-! `mod notify_enclave_key_update` -/

/-- `notify_enclave_key_update` -/
example : Good three (prep ++ [by_ 1 (.toCapsule 0 []), setState 0 { capsule := true }]) 1 (.notifyKey 0)
    (.keyUpdateNotified 0) (fun w => st0 w)
    (some { capsule := true, syncCapsule := true }) := ⟨rfl, rfl⟩

/-- `nft_not_found` -/
example : Bad three (prep) 1 (.notifyKey 1001) "NFTNotFound" := rfl

/-- `not_the_nft_owner` -/
example : Bad three (prep) 1 (.notifyKey 1) "NotTheNFTOwner" := rfl

/-- `nft_is_not_capsule` -/
example : Bad three (prep) 1 (.notifyKey 0) "NFTIsNotCapsule" := rfl

/-- `cannot_change_key_for_listed_nfts` -/
example : Bad three (prep ++ [by_ 1 (.toCapsule 0 []), setState 0 { capsule := true, listed := true }])
    1 (.notifyKey 0) "CannotChangeKeyForListedNFTs" := rfl

/-- `cannot_change_key_for_rented_nfts` -/
example : Bad three (prep ++ [by_ 1 (.toCapsule 0 []), setState 0 { capsule := true, rented := true }])
    1 (.notifyKey 0) "CannotChangeKeyForRentedNFTs" := rfl

/-- `cannot_change_key_for_delegated_nfts` -/
example : Bad three (prep ++ [by_ 1 (.toCapsule 0 []), setState 0 { capsule := true, delegated := true }])
    1 (.notifyKey 0) "CannotChangeKeyForDelegatedNFTs" := rfl

/-- `cannot_change_key_for_syncing_nfts` -/
example : Bad three (prep ++ [by_ 1 (.toCapsule 0 []), setState 0 { capsule := true, syncSecret := true }])
    1 (.notifyKey 0) "CannotChangeKeyForSyncingNFTs" := rfl

/-- `cannot_change_key_for_syncing_capsules` -/
example : Bad three (prep ++ [by_ 1 (.toCapsule 0 []), setState 0 { capsule := true, syncCapsule := true }])
    1 (.notifyKey 0) "CannotChangeKeyForSyncingCapsules" := rfl

/-- `cannot_change_key_for_nfts_in_transmission` -/
example : Bad three (prep ++ [by_ 1 (.toCapsule 0 []), setState 0 { capsule := true, transmission := true }])
    1 (.notifyKey 0) "CannotChangeKeyForNFTsInTransmission" := rfl

/-! `mod set_collection_offchaindata` -/

/-- `set_collection_offchaindata` -/
example : Good two (prep) 1 (.setCollData 0 [1])
    (.collDataSet 0 [1]) (fun w => (w.nft.colls.get 0).map (·.offchain))
    (some [1]) := ⟨rfl, rfl⟩

/-- `collection_not_found` -/
example : Bad two (prep) 1 (.setCollData 1001 [1]) "CollectionNotFound" := rfl

/-- `not_the_collection_owner` -/
example : Bad two (prep) 1 (.setCollData 1 [1]) "NotTheCollectionOwner" := rfl

/-! nft/src/tests/traits.rs: `set_nft_state`, `get_nft`, `set_nft` are `World.putNft` and `FMap.get` of the model;
`create_nft` and `create_filled_collection` of the trait are not modelled. -/

/-- `set_nft_state` -/
example : see c (ext [(1, 1000)]) [by_ 1 (.createNft [] p0 none false),
      setState 0 (st true true true true true true false false false)] st0 =
    some (some (st true true true true true true false false false)) := rfl

/-- `get_nft` -/
example : see c (ext [(1, 1000)]) [by_ 1 (.createNft [] p0 none false)]
    (fun w => ((w.nfts.get 0).map (·.owner), w.nfts.get 999)) = some (some 1, none) := rfl

end Conform.Nft

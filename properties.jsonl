{"id": "C01", "title": "NFT ids are unique for ever", "statement": "Creating an NFT always yields an id that no NFT has ever had; a burned id never comes back; every existing NFT has an id below next_nft_id.", "quantifier": "every finite history of extrinsics (any pallet, any signer, any arguments), block hooks and block/era changes from an empty chain", "why_tests_cant": "A test replays a handful of histories; the claim is about every interleaving of calls from nine pallets that share the NFT and balance storage.", "anchors": ["nft/src/lib.rs: get_next_nft_id, create_nft_helper, burn_nft"]}
{"id": "C02", "title": "Creator and soulbound flag are immutable", "statement": "As long as an NFT exists, its creator and its soulbound flag are the ones it was minted with, whatever extrinsics or hooks run.", "quantifier": "every finite history of extrinsics (any pallet, any signer, any arguments), block hooks and block/era changes from an empty chain", "why_tests_cant": "A test replays a handful of histories; the claim is about every interleaving of calls from nine pallets that share the NFT and balance storage.", "anchors": ["nft/src/lib.rs: create_nft_helper", "marketplace/src/lib.rs: buy_nft", "auction/src/lib.rs: on_initialize", "rent/src/lib.rs: create_contract", "transmission-protocols/src/lib.rs: transmit_nft"]}
{"id": "C03", "title": "Ownership only moves by the owner's own act", "statement": "Whenever the owner of an NFT changes, the old owner either signed that very call (transfer, rent deposit), or had put the NFT up for sale or auction, deposited it in the rental escrow, offered it as rent fee of a contract they rent, or set a transmission protocol on it; the new owner is the buyer, winning bidder, contract party or designated recipient.", "quantifier": "every finite history of extrinsics (any pallet, any signer, any arguments), block hooks and block/era changes from an empty chain; every NFT; every single transition", "why_tests_cant": "A test replays a handful of histories; the claim is about every interleaving of calls from nine pallets that share the NFT and balance storage.", "anchors": ["nft/src/lib.rs: transfer_nft", "marketplace/src/lib.rs: buy_nft", "auction/src/lib.rs: on_initialize, end_auction, buy_it_now", "rent/src/lib.rs: change_nft_ownership", "transmission-protocols/src/lib.rs: transmit_nft"]}
{"id": "C04", "title": "An NFT disappears only when its owner burns it", "statement": "If an NFT exists before a step and not after it, the step is burn_nft signed by its owner and the NFT was not listed, rented, delegated or in transmission.", "quantifier": "every finite history of extrinsics (any pallet, any signer, any arguments), block hooks and block/era changes from an empty chain", "why_tests_cant": "A test replays a handful of histories; the claim is about every interleaving of calls from nine pallets that share the NFT and balance storage.", "anchors": ["nft/src/lib.rs: burn_nft"]}
{"id": "C05", "title": "Soulbound NFTs move at most once", "statement": "Once a soulbound NFT is owned by someone other than its creator, its owner never changes again until it is burned, through any pallet.", "quantifier": "every finite history of extrinsics (any pallet, any signer, any arguments), block hooks and block/era changes from an empty chain", "why_tests_cant": "A test replays a handful of histories; the claim is about every interleaving of calls from nine pallets that share the NFT and balance storage.", "anchors": ["nft/src/lib.rs: transfer_nft", "marketplace/src/lib.rs: list_nft", "auction/src/lib.rs: create_auction", "rent/src/lib.rs: invalid_state", "transmission-protocols/src/lib.rs: set_transmission_protocol"]}
{"id": "C06", "title": "One commercial use at a time", "statement": "At most one of listed, rented, delegated and in-transmission holds for an NFT, and an NFT whose secret or capsule is syncing is in none of the four and not both syncing at once.", "quantifier": "every finite history of extrinsics (any pallet, any signer, any arguments), block hooks and block/era changes from an empty chain", "why_tests_cant": "A test replays a handful of histories; the claim is about every interleaving of calls from nine pallets that share the NFT and balance storage.", "anchors": ["primitives/src/nfts.rs: NFTState", "nft/src/lib.rs", "marketplace/src/lib.rs: list_nft", "auction/src/lib.rs: create_auction", "rent/src/lib.rs: create_contract", "transmission-protocols/src/lib.rs: set_transmission_protocol"]}
{"id": "C07", "title": "NFT flags agree with the pallets' records", "statement": "An NFT is flagged listed iff it has exactly one of a marketplace sale or an auction; rented iff it has a rent contract; in transmission iff it has a transmission record; delegated iff it has a delegatee. Every such record belongs to an existing NFT and names its current owner as seller / auction creator / renter.", "quantifier": "every finite history of extrinsics (any pallet, any signer, any arguments), block hooks and block/era changes from an empty chain", "why_tests_cant": "A test replays a handful of histories; the claim is about every interleaving of calls from nine pallets that share the NFT and balance storage.", "anchors": ["nft/src/lib.rs: DelegatedNFTs", "marketplace/src/lib.rs: ListedNfts", "auction/src/lib.rs: Auctions", "rent/src/lib.rs: Contracts", "transmission-protocols/src/lib.rs: Transmissions"]}
{"id": "C08", "title": "Collections and NFTs agree", "statement": "An NFT names a collection iff that collection exists and lists the NFT; a collection lists no NFT twice; the size never exceeds the collection's own limit nor the global limit.", "quantifier": "every finite history of extrinsics (any pallet, any signer, any arguments), block hooks and block/era changes from an empty chain", "why_tests_cant": "A test replays a handful of histories; the claim is about every interleaving of calls from nine pallets that share the NFT and balance storage.", "anchors": ["nft/src/lib.rs: create_nft_helper, add_nft_to_collection, burn_nft, burn_collection, limit_collection"]}
{"id": "C09", "title": "Closed and limited collections stay so", "statement": "A closed collection never gains an NFT and never reopens; a limit once set never changes; a collection's owner never changes.", "quantifier": "every finite history of extrinsics (any pallet, any signer, any arguments), block hooks and block/era changes from an empty chain", "why_tests_cant": "A test replays a handful of histories; the claim is about every interleaving of calls from nine pallets that share the NFT and balance storage.", "anchors": ["nft/src/lib.rs: close_collection, limit_collection, create_nft_helper, add_nft_to_collection"]}
{"id": "C10", "title": "Collection membership is permanent", "statement": "An NFT, once in a collection, stays in that same collection until it is burned.", "quantifier": "every finite history of extrinsics (any pallet, any signer, any arguments), block hooks and block/era changes from an empty chain", "why_tests_cant": "A test replays a handful of histories; the claim is about every interleaving of calls from nine pallets that share the NFT and balance storage.", "anchors": ["nft/src/lib.rs: add_nft_to_collection, burn_nft"]}
{"id": "C11", "title": "Sync completes only with enough distinct enclaves of one cluster", "statement": "While a secret or capsule syncs, the recorded shards come from distinct operators of a single cluster and are fewer than ShardsNumber; the syncing flag is cleared only by a shard call that makes the count reach exactly ShardsNumber (or by burning).", "quantifier": "every finite history of extrinsics (any pallet, any signer, any arguments), block hooks and block/era changes from an empty chain", "why_tests_cant": "A test replays a handful of histories; the claim is about every interleaving of calls from nine pallets that share the NFT and balance storage.", "anchors": ["nft/src/lib.rs: add_secret_shard, add_capsule_shard"]}
{"id": "C12", "title": "Burning leaves nothing behind", "statement": "After an NFT is burned there is no sale, auction, contract, transmission, consent, delegation, shard list, secret data, capsule data or collection entry for its id, and there never is again.", "quantifier": "every finite history of extrinsics (any pallet, any signer, any arguments), block hooks and block/era changes from an empty chain", "why_tests_cant": "A test replays a handful of histories; the claim is about every interleaving of calls from nine pallets that share the NFT and balance storage.", "anchors": ["nft/src/lib.rs: burn_nft"]}
{"id": "C13", "title": "Secret and capsule data exist exactly for secret and capsule NFTs", "statement": "Secret offchain data exists for an id iff the NFT exists and is secret; capsule data iff it exists and is a capsule; secret and capsule status is never lost.", "quantifier": "every finite history of extrinsics (any pallet, any signer, any arguments), block hooks and block/era changes from an empty chain", "why_tests_cant": "A test replays a handful of histories; the claim is about every interleaving of calls from nine pallets that share the NFT and balance storage.", "anchors": ["nft/src/lib.rs: add_secret_helper, convert_to_capsule_helper, burn_nft"]}
{"id": "C14", "title": "Mint fees are exact", "statement": "A successful mint, secret, capsule, marketplace creation or transmission set-up takes exactly the configured fee(s) from the caller, hands the same amount to the fee collector, and touches no other balance.", "quantifier": "every state and every caller, data, collection and fee setting", "why_tests_cant": "Fee, balance, lock and existential-deposit combinations are unbounded.", "anchors": ["nft/src/lib.rs: create_nft_helper, add_secret_helper, convert_to_capsule_helper", "marketplace/src/lib.rs: pay_mint_fee", "transmission-protocols/src/lib.rs: set_transmission_protocol"]}
{"id": "C15", "title": "Buying pays the price exactly once and in full", "statement": "A successful buy_nft takes exactly the signed price from the buyer and splits it, without loss or creation of tokens, into commission, royalty on the remainder, and the seller's part; no other account changes; the commission never exceeds the price.", "quantifier": "every reachable state, buyer, price, royalty, commission and identity of the four parties (including coinciding ones)", "why_tests_cant": "Rounding and coinciding accounts give unboundedly many cases.", "anchors": ["marketplace/src/lib.rs: buy_nft, pay_commission_fee"]}
{"id": "C16", "title": "Terms of a listing are frozen", "statement": "Between listing and sale or unlisting, price, commission terms, marketplace and seller of the listing do not change, even if the marketplace is reconfigured or sold.", "quantifier": "every finite history of extrinsics (any pallet, any signer, any arguments), block hooks and block/era changes from an empty chain", "why_tests_cant": "A test replays a handful of histories; the claim is about every interleaving of calls from nine pallets that share the NFT and balance storage.", "anchors": ["marketplace/src/lib.rs: list_nft, set_marketplace_configuration"]}
{"id": "C17", "title": "Marketplace control", "statement": "Only the current owner changes a marketplace's owner, kind or configuration; marketplace ids are unique and marketplaces never disappear.", "quantifier": "every finite history of extrinsics (any pallet, any signer, any arguments), block hooks and block/era changes from an empty chain", "why_tests_cant": "A test replays a handful of histories; the claim is about every interleaving of calls from nine pallets that share the NFT and balance storage.", "anchors": ["marketplace/src/lib.rs: set_marketplace_owner, set_marketplace_kind, set_marketplace_configuration, get_next_marketplace_id"]}
{"id": "C18", "title": "Listing respects the marketplace's access rule", "statement": "Whenever an NFT becomes listed or auctioned on a marketplace, the seller was allowed at that moment: public marketplaces exclude exactly the accounts and collections in their lists, private ones admit exactly those.", "quantifier": "every finite history of extrinsics (any pallet, any signer, any arguments), block hooks and block/era changes from an empty chain", "why_tests_cant": "A test replays a handful of histories; the claim is about every interleaving of calls from nine pallets that share the NFT and balance storage.", "anchors": ["primitives/src/marketplace.rs: allowed_to_list", "marketplace/src/lib.rs: list_nft", "auction/src/lib.rs: create_auction"]}
{"id": "C19", "title": "Auction bids form a strict ladder", "statement": "In every auction the recorded bids are strictly increasing, one per account, at most BidderListLengthLimit many, none by the auction creator, all above the start price and above the existential deposit; a new bid always becomes the highest.", "quantifier": "every finite history of extrinsics (any pallet, any signer, any arguments), block hooks and block/era changes from an empty chain", "why_tests_cant": "A test replays a handful of histories; the claim is about every interleaving of calls from nine pallets that share the NFT and balance storage.", "anchors": ["auction/src/types.rs: BidderList", "auction/src/lib.rs: add_bid, remove_bid"]}
{"id": "C20", "title": "Auction escrow covers all bids and claims", "statement": "The auction pot always holds at least the sum of all standing bids and all unclaimed refunds.", "quantifier": "every finite history of extrinsics (any pallet, any signer, any arguments), block hooks and block/era changes from an empty chain", "why_tests_cant": "A test replays a handful of histories; the claim is about every interleaving of calls from nine pallets that share the NFT and balance storage. The failure needs a payout that aborts half-way inside a block hook.", "anchors": ["auction/src/lib.rs: on_initialize, pay_for_nft, add_bid, add_claim, claim"]}
{"id": "C21", "title": "Auction sale proceeds are split exactly", "statement": "When an auction is settled for an amount, marketplace, NFT creator and auction creator together receive exactly this amount, and the winner receives the NFT.", "quantifier": "every reachable state and settlement (hook, end_auction, buy_it_now), any coincidence of accounts", "why_tests_cant": "Rounding, flat and percentage commissions and coinciding parties give unboundedly many cases.", "anchors": ["auction/src/lib.rs: pay_for_nft, on_initialize, end_auction, buy_it_now"]}
{"id": "C22", "title": "Nobody's stake in auctions changes by others' acts", "statement": "For every account, standing bids plus claim change only by its own bid (plus what it pays), its own bid removal or claim (minus what it receives), or by winning (minus the winning bid); dropped, outbid and cancelled bids are preserved to the token.", "quantifier": "every finite history of extrinsics (any pallet, any signer, any arguments), block hooks and block/era changes from an empty chain", "why_tests_cant": "A test replays a handful of histories; the claim is about every interleaving of calls from nine pallets that share the NFT and balance storage.", "anchors": ["auction/src/lib.rs: add_bid, remove_bid, claim, cancel_auction, buy_it_now, end_auction, on_initialize"]}
{"id": "C23", "title": "A refund can always be claimed", "statement": "In a state where the auction pot covers its obligations, an account with a claim can always withdraw it in full.", "quantifier": "every reachable solvent state and every claimant, including accounts that do not exist", "why_tests_cant": "Existential deposit and dust corner cases.", "anchors": ["auction/src/lib.rs: claim"]}
{"id": "C24", "title": "Auction timetable", "statement": "An auction is cancelled only before its start, bid on only after its start, settled to the highest bidder only at or after its end block or, once extended, by its creator; bids are withdrawn only before the ending period.", "quantifier": "every finite history of extrinsics (any pallet, any signer, any arguments), block hooks and block/era changes from an empty chain", "why_tests_cant": "A test replays a handful of histories; the claim is about every interleaving of calls from nine pallets that share the NFT and balance storage.", "anchors": ["auction/src/lib.rs: cancel_auction, add_bid, end_auction, remove_bid, on_initialize"]}
{"id": "C25", "title": "A late bid leaves everybody the grace period", "statement": "After any accepted bid the auction ends no earlier than the grace period after the current block.", "quantifier": "every finite history of extrinsics (any pallet, any signer, any arguments), block hooks and block/era changes from an empty chain", "why_tests_cant": "A test replays a handful of histories; the claim is about every interleaving of calls from nine pallets that share the NFT and balance storage.", "anchors": ["auction/src/types.rs: extend_if_necessary", "auction/src/lib.rs: add_bid"]}
{"id": "C26", "title": "Auction deadlines match auctions", "statement": "Every running auction has exactly one scheduled end equal to its end block; the schedule is sorted, has no duplicates and no entries without auction.", "quantifier": "every finite history of extrinsics (any pallet, any signer, any arguments), block hooks and block/era changes from an empty chain", "why_tests_cant": "A test replays a handful of histories; the claim is about every interleaving of calls from nine pallets that share the NFT and balance storage.", "anchors": ["auction/src/types.rs: DeadlineList", "auction/src/lib.rs: create_auction, on_initialize"]}
{"id": "C27", "title": "Due auctions are settled in bounded time", "statement": "An auction at position i of the schedule whose end block has passed is processed within the next i/max(1,ActionsInBlockLimit)+1 block starts, whatever happens in between, unless its creator ends it, somebody buys it or a further bid extends it before.", "quantifier": "every reachable state, every queue length, every sequence of blocks with arbitrary extrinsics", "why_tests_cant": "Liveness over unbounded block sequences.", "anchors": ["auction/src/lib.rs: on_initialize"]}
{"id": "C28", "title": "Rental escrow covers all cancellation deposits", "statement": "The rent pot always holds at least the token deposits of all renters and of the rentees of running contracts.", "quantifier": "every finite history of extrinsics (any pallet, any signer, any arguments), block hooks and block/era changes from an empty chain", "why_tests_cant": "A test replays a handful of histories; the claim is about every interleaving of calls from nine pallets that share the NFT and balance storage.", "anchors": ["rent/src/lib.rs: create_contract, take_rent_and_cancellation_fee, return_cancellation_fee, return_flexible_fee, handle_finished_or_unused_contract, on_initialize"]}
{"id": "C29", "title": "Rental NFT deposits are held safely", "statement": "An NFT deposited as cancellation fee is owned by the rent pot, unencumbered, and belongs to exactly one contract, from deposit until that contract ends.", "quantifier": "every finite history of extrinsics (any pallet, any signer, any arguments), block hooks and block/era changes from an empty chain", "why_tests_cant": "A test replays a handful of histories; the claim is about every interleaving of calls from nine pallets that share the NFT and balance storage.", "anchors": ["rent/src/lib.rs: create_contract, take_rent_and_cancellation_fee, return_cancellation_fee"]}
{"id": "C30", "title": "Contracts are queued exactly once", "statement": "Every contract is in exactly one schedule: 'available' while nobody rents it, 'fixed' or 'subscription' (by its duration kind) while it runs; no schedule has an entry without contract; the total size never exceeds the limit, so starting a contract never fails for lack of queue space.", "quantifier": "every finite history of extrinsics (any pallet, any signer, any arguments), block hooks and block/era changes from an empty chain", "why_tests_cant": "A test replays a handful of histories; the claim is about every interleaving of calls from nine pallets that share the NFT and balance storage.", "anchors": ["rent/src/types.rs: RentingQueues", "rent/src/lib.rs"]}
{"id": "C31", "title": "Rental deposits are returned on expiry", "statement": "When a contract finishes or expires in the block hook, the settlement never fails: both deposits go back in full, the NFT is released to its renter and the record disappears.", "quantifier": "every finite history of extrinsics (any pallet, any signer, any arguments), block hooks and block/era changes from an empty chain", "why_tests_cant": "A test replays a handful of histories; the claim is about every interleaving of calls from nine pallets that share the NFT and balance storage. The hook ignores errors and is not transactional.", "anchors": ["rent/src/lib.rs: on_initialize, handle_finished_or_unused_contract"]}
{"id": "C32", "title": "Revocation pays the damaged party", "statement": "Revoking a running contract is possible only for the rentee, or for the renter if the contract allows it; the other party receives back its own deposit plus the revoker's deposit (or, for flexible fees, the uncompleted part with the rest going back to the revoker); total paid equals total deposited.", "quantifier": "every reachable state and running contract", "why_tests_cant": "Interplay of fee kinds, rounding and coinciding accounts.", "anchors": ["rent/src/lib.rs: revoke_contract, return_flexible_fee, return_cancellation_fee"]}
{"id": "C33", "title": "A rentee pays only accepted terms", "statement": "A rentee is charged the fee and period they agreed to when renting or accepting new terms; after a change of subscription terms nothing is charged until the rentee accepts exactly those terms.", "quantifier": "every finite history of extrinsics (any pallet, any signer, any arguments), block hooks and block/era changes from an empty chain", "why_tests_cant": "A test replays a handful of histories; the claim is about every interleaving of calls from nine pallets that share the NFT and balance storage.", "anchors": ["rent/src/lib.rs: rent, change_subscription_terms, accept_subscription_terms, handle_subscription_contract"]}
{"id": "C34", "title": "Offers bind only to the contract they were made for", "statement": "accept_rent_offer starts a contract only with an account that made an offer on this very contract and its terms and did not retract it.", "quantifier": "every finite history of extrinsics (any pallet, any signer, any arguments), block hooks and block/era changes from an empty chain", "why_tests_cant": "A test replays a handful of histories; the claim is about every interleaving of calls from nine pallets that share the NFT and balance storage.", "anchors": ["rent/src/lib.rs: make_rent_offer, accept_rent_offer, retract_rent_offer, on_initialize"]}
{"id": "C35", "title": "A running rental is never taken over", "statement": "While a contract runs, its rentee and start block do not change, and its NFT stays with the renter until the contract ends.", "quantifier": "every finite history of extrinsics (any pallet, any signer, any arguments), block hooks and block/era changes from an empty chain", "why_tests_cant": "A test replays a handful of histories; the claim is about every interleaving of calls from nine pallets that share the NFT and balance storage.", "anchors": ["rent/src/lib.rs: rent, accept_rent_offer"]}
{"id": "C36", "title": "Fixed rentals last their full duration", "statement": "A fixed-duration contract that has started ends only by revocation or at a block no earlier than start + duration; it is ended by the hook a bounded number of blocks after that.", "quantifier": "every finite history of extrinsics (any pallet, any signer, any arguments), block hooks and block/era changes from an empty chain", "why_tests_cant": "A test replays a handful of histories; the claim is about every interleaving of calls from nine pallets that share the NFT and balance storage.", "anchors": ["rent/src/lib.rs: on_initialize, rent"]}
{"id": "C37", "title": "Transmission goes to the designated recipient", "statement": "From the moment a protocol is set until it is executed or removed, the NFT's owner and recipient do not change; execution gives the NFT to exactly this recipient.", "quantifier": "every finite history of extrinsics (any pallet, any signer, any arguments), block hooks and block/era changes from an empty chain", "why_tests_cant": "A test replays a handful of histories; the claim is about every interleaving of calls from nine pallets that share the NFT and balance storage.", "anchors": ["transmission-protocols/src/lib.rs: transmit_nft, set_transmission_protocol"]}
{"id": "C38", "title": "No transmission before its time", "statement": "An NFT under a protocol with an end block is not transmitted before this block.", "quantifier": "every finite history of extrinsics (any pallet, any signer, any arguments), block hooks and block/era changes from an empty chain", "why_tests_cant": "A test replays a handful of histories; the claim is about every interleaving of calls from nine pallets that share the NFT and balance storage.", "anchors": ["transmission-protocols/src/lib.rs: on_initialize, add_consent, reset_timer"]}
{"id": "C39", "title": "Consent threshold is respected", "statement": "An NFT under a consent protocol is transmitted only after at least `threshold` distinct accounts of its consent list have each called add_consent for this protocol.", "quantifier": "every finite history of extrinsics (any pallet, any signer, any arguments), block hooks and block/era changes from an empty chain", "why_tests_cant": "A test replays a handful of histories; the claim is about every interleaving of calls from nine pallets that share the NFT and balance storage.", "anchors": ["transmission-protocols/src/lib.rs: add_consent"]}
{"id": "C40", "title": "Irrevocable transmissions are irrevocable", "statement": "A protocol with cancellation None (or UntilBlock b after b) can never be removed: the NFT stays in transmission until it reaches the recipient.", "quantifier": "every finite history of extrinsics (any pallet, any signer, any arguments), block hooks and block/era changes from an empty chain", "why_tests_cant": "A test replays a handful of histories; the claim is about every interleaving of calls from nine pallets that share the NFT and balance storage.", "anchors": ["transmission-protocols/src/lib.rs: remove_transmission_protocol, reset_timer"]}
{"id": "C41", "title": "Due transmissions are executed in bounded time", "statement": "A queued transmission at position i whose block has passed is executed after at most i/max(1,ActionsInBlockLimit)+1 further block starts; the hook never reports a transmission error.", "quantifier": "every reachable state, every queue length, every sequence of blocks with arbitrary extrinsics", "why_tests_cant": "Liveness over unbounded block sequences.", "anchors": ["transmission-protocols/src/lib.rs: on_initialize"]}
{"id": "C42", "title": "Transmission schedule is consistent", "statement": "The schedule is sorted, duplicate free and within its limit; timed protocols are scheduled at exactly their block; consent protocols only once the threshold is reached; consents are recorded only for consent protocols, from distinct listed accounts, fewer than the threshold.", "quantifier": "every finite history of extrinsics (any pallet, any signer, any arguments), block hooks and block/era changes from an empty chain", "why_tests_cant": "A test replays a handful of histories; the claim is about every interleaving of calls from nine pallets that share the NFT and balance storage.", "anchors": ["transmission-protocols/src/types.rs: Queue", "transmission-protocols/src/lib.rs"]}
{"id": "C43", "title": "Enclave registry is consistent", "statement": "An operator has enclave data iff it is assigned to exactly one cluster, listed there exactly once, and has an assignment era; clusters never exceed ClusterSize; a pending registration and an active enclave exclude each other; the operator's current enclave address resolves to this operator.", "quantifier": "every finite history of extrinsics (any pallet, any signer, any arguments), block hooks and block/era changes from an empty chain", "why_tests_cant": "A test replays a handful of histories; the claim is about every interleaving of calls from nine pallets that share the NFT and balance storage.", "anchors": ["tee/src/lib.rs: assign_enclave, approve_enclave_unregistration, force_remove_enclave, approve_update_enclave, force_update_enclave"]}
{"id": "C44", "title": "Only current enclaves authenticate", "statement": "An address passes the enclave check iff it is the current enclave address of an operator assigned to a cluster.", "quantifier": "every finite history of extrinsics (any pallet, any signer, any arguments), block hooks and block/era changes from an empty chain", "why_tests_cant": "A test replays a handful of histories; the claim is about every interleaving of calls from nine pallets that share the NFT and balance storage.", "anchors": ["tee/src/lib.rs: ensure_enclave, approve_update_enclave"]}
{"id": "C45", "title": "Stake is locked until unbonding is over", "statement": "A bonded stake is fully locked in the operator's account (and the account holds it) and becomes free only when the pending registration is withdrawn or removed, or at least TeeBondingDuration blocks after unregistration or forced removal, or, for the excess only, when root has lowered the staking amount and the operator takes the excess back.", "quantifier": "every finite history of extrinsics (any pallet, any signer, any arguments), block hooks and block/era changes from an empty chain", "why_tests_cant": "A test replays a handful of histories; the claim is about every interleaving of calls from nine pallets that share the NFT and balance storage.", "anchors": ["tee/src/lib.rs: register_enclave, unregister_enclave, remove_registration, withdraw_unbonded, bond_extra, refund_excess"]}
{"id": "C46", "title": "Active operators are staked", "statement": "Every operator with an active enclave has a staking ledger.", "quantifier": "every finite history of extrinsics (any pallet, any signer, any arguments), block hooks and block/era changes from an empty chain", "why_tests_cant": "A test replays a handful of histories; the claim is about every interleaving of calls from nine pallets that share the NFT and balance storage.", "anchors": ["tee/src/lib.rs: withdraw_unbonded, approve_enclave_unregistration"]}
{"id": "C47", "title": "Rewards are claimed at most once per era", "statement": "For each era and operator rewards are paid at most once, only for eras within the claim window and not before the operator's assigned era, and at most the operator's share of the daily pool; no reward is paid from anything but the TEE pot.", "quantifier": "every finite history of extrinsics (any pallet, any signer, any arguments), block hooks and block/era changes from an empty chain with non-decreasing active era", "why_tests_cant": "A test replays a handful of histories; the claim is about every interleaving of calls from nine pallets that share the NFT and balance storage.", "anchors": ["tee/src/lib.rs: claim_rewards, clear_old_era"]}
{"id": "C48", "title": "An era's rewards do not exceed the pool", "statement": "The rewards claimed for one era sum to at most the daily reward pool.", "quantifier": "every finite history of extrinsics (any pallet, any signer, any arguments), block hooks and block/era changes from an empty chain", "why_tests_cant": "A test replays a handful of histories; the claim is about every interleaving of calls from nine pallets that share the NFT and balance storage.", "anchors": ["tee/src/lib.rs: claim_rewards"]}
{"id": "C49", "title": "Metrics reports are closed before rewards open", "statement": "Reports for an era are recorded only while it is the last finished era, only by registered metrics servers of public type; once rewards of an era can be claimed its reports no longer change (except being cleared).", "quantifier": "every finite history of extrinsics (any pallet, any signer, any arguments), block hooks and block/era changes from an empty chain", "why_tests_cant": "A test replays a handful of histories; the claim is about every interleaving of calls from nine pallets that share the NFT and balance storage.", "anchors": ["tee/src/lib.rs: submit_metrics_server_report, claim_rewards, clear_old_era"]}
{"id": "C50", "title": "A metrics server can only speak for itself", "statement": "A report recorded under a metrics server's address was submitted by that server.", "quantifier": "every finite history of extrinsics (any pallet, any signer, any arguments), block hooks and block/era changes from an empty chain", "why_tests_cant": "A test replays a handful of histories; the claim is about every interleaving of calls from nine pallets that share the NFT and balance storage.", "anchors": ["tee/src/lib.rs: submit_metrics_server_report"]}
{"id": "C51", "title": "Bridge mints at most once per approved transfer", "statement": "For each (source chain, nonce, recipient, amount) tokens are minted at most once, ever.", "quantifier": "every finite history of extrinsics (any pallet, any signer, any arguments), block hooks and block/era changes from an empty chain", "why_tests_cant": "A test replays a handful of histories; the claim is about every interleaving of calls from nine pallets that share the NFT and balance storage.", "anchors": ["bridge/src/lib.rs: vote_for_proposal", "bridge/src/types.rs: Proposal"]}
{"id": "C52", "title": "Bridge mints need a threshold of distinct relayer votes", "statement": "Every mint is preceded by at least threshold (at approval time) votes for exactly this (chain, nonce, recipient, amount), by distinct accounts each of which was a relayer when voting, all before the proposal's expiry.", "quantifier": "every finite history of extrinsics (any pallet, any signer, any arguments), block hooks and block/era changes from an empty chain", "why_tests_cant": "A test replays a handful of histories; the claim is about every interleaving of calls from nine pallets that share the NFT and balance storage.", "anchors": ["bridge/src/lib.rs: vote_for_proposal", "bridge/src/types.rs: try_to_complete"]}
{"id": "C53", "title": "Bridge mints at most once per deposit nonce", "statement": "For each (source chain, nonce) tokens are minted at most once.", "quantifier": "every finite history of extrinsics (any pallet, any signer, any arguments), block hooks and block/era changes from an empty chain", "why_tests_cant": "A test replays a handful of histories; the claim is about every interleaving of calls from nine pallets that share the NFT and balance storage.", "anchors": ["bridge/src/lib.rs: vote_for_proposal, Votes"]}
{"id": "C54", "title": "Outgoing deposit nonces are unique and increasing", "statement": "For each destination chain the nonces of successive DepositMade events are strictly increasing, so no (chain, nonce) pair is emitted twice.", "quantifier": "every finite history of extrinsics (any pallet, any signer, any arguments), block hooks and block/era changes from an empty chain", "why_tests_cant": "A test replays a handful of histories; the claim is about every interleaving of calls from nine pallets that share the NFT and balance storage.", "anchors": ["bridge/src/lib.rs: deposit, set_deposit_nonce, add_chain"]}
{"id": "C55", "title": "A bridge deposit burns exactly what it announces", "statement": "A successful deposit takes fee + amount from the sender, gives the fee to the collector, removes exactly the announced amount from the total issuance (plus at most the sender's dust), and touches no other account, for all amounts including those whose sum with the fee overflows.", "quantifier": "every state, sender, amount up to 2^128 and fee", "why_tests_cant": "Overflow and existential-deposit corner cases.", "anchors": ["bridge/src/lib.rs: deposit"]}
{"id": "C56", "title": "Only whitelisted foreign chains bridge", "statement": "No mint and no deposit happens for a chain that root did not add, nor for the chain's own id; a whitelisted chain stays whitelisted.", "quantifier": "every finite history of extrinsics (any pallet, any signer, any arguments), block hooks and block/era changes from an empty chain", "why_tests_cant": "A test replays a handful of histories; the claim is about every interleaving of calls from nine pallets that share the NFT and balance storage.", "anchors": ["bridge/src/lib.rs: add_chain, chain_allowed"]}
{"id": "C57", "title": "Collected fees are paid out exactly once", "statement": "Over any history the total of era payouts equals the fees accumulated and already paid plus what was really withdrawn from the reward pot; fees are never paid twice nor lost, below saturation.", "quantifier": "every finite history of extrinsics (any pallet, any signer, any arguments), block hooks and block/era changes from an empty chain", "why_tests_cant": "A test replays a handful of histories; the claim is about every interleaving of calls from nine pallets that share the NFT and balance storage.", "anchors": ["staking-rewards/src/lib.rs: on_unbalanceds, era_payout"]}
{"id": "C58", "title": "Era payout never exceeds pot and configured extra", "statement": "The extra part of an era payout is at most the configured extra reward and at most the pot's balance, and exactly this is taken from the pot (dust aside).", "quantifier": "every state", "why_tests_cant": "Existential-deposit corner cases.", "anchors": ["staking-rewards/src/lib.rs: era_payout"]}
{"id": "C59", "title": "Mandate acts as root only for the configured origin, and always reports success", "statement": "Without the configured origin the call has no effect; with it the inner call runs with root origin exactly once, its failure leaves the state unchanged, and the outcome is in the event only.", "quantifier": "every inner call, nested to any depth, and every state", "why_tests_cant": "Arbitrary nested calls.", "anchors": ["mandate/src/lib.rs: mandate"]}
{"id": "C60", "title": "Only root sets global parameters", "statement": "Fees, staking parameters, bridge parameters and protocol fees change only in calls with root (or the configured external) origin.", "quantifier": "every finite history of extrinsics (any pallet, any signer, any arguments), block hooks and block/era changes from an empty chain", "why_tests_cant": "A test replays a handful of histories; the claim is about every interleaving of calls from nine pallets that share the NFT and balance storage.", "anchors": ["nft/src/lib.rs: set_nft_mint_fee", "marketplace/src/lib.rs: set_marketplace_mint_fee", "transmission-protocols/src/lib.rs: set_protocol_fee", "tee/src/lib.rs: set_staking_amount", "bridge/src/lib.rs: set_threshold"]}
{"id": "C61", "title": "Token supply is conserved", "statement": "The total issuance equals the sum of all free balances plus the fees held by the collector; within these pallets it grows only by an approved bridge proposal, by at most the amount of the transfer, and shrinks only by bridge deposits, transaction fees and tips, era-payout withdrawals and the dust of emptied accounts.", "quantifier": "every finite history of extrinsics (any pallet, any signer, any arguments), block hooks and block/era changes from an empty chain", "why_tests_cant": "A test replays a handful of histories; the claim is about every interleaving of calls from nine pallets that share the NFT and balance storage.", "anchors": ["all pallets' uses of Currency"]}
{"id": "C62", "title": "Nobody else's tokens are touched", "statement": "A call by one account decreases the free balance of another account only for: pots paying what they hold, a rentee whose offer is accepted, or a running subscription renewal; no locked stake is ever spent.", "quantifier": "every finite history of extrinsics (any pallet, any signer, any arguments), block hooks and block/era changes from an empty chain", "why_tests_cant": "A test replays a handful of histories; the claim is about every interleaving of calls from nine pallets that share the NFT and balance storage.", "anchors": ["all pallets' uses of Currency"]}
{"id": "C63", "title": "No panics, and no schedule operation fails", "statement": "No extrinsic panics, except a creation after all 2^32 - 1 ids of its kind are used up; in particular updating a deadline or transmission timer and inserting a bid never panic; queue inserts after a removal never fail; and what block hooks do never panics.", "quantifier": "every finite history of extrinsics (any pallet, any signer, any arguments), block hooks and block/era changes from an empty chain", "why_tests_cant": "A test replays a handful of histories; the claim is about every interleaving of calls from nine pallets that share the NFT and balance storage.", "anchors": ["auction/src/types.rs: DeadlineList::update, BidderList::insert_new_bid", "transmission-protocols/src/types.rs: Queue::update", "rent/src/types.rs: Queue::insert"]}
{"id": "C64", "title": "Expired rent contracts and due subscription periods are processed", "statement": "A contract nobody rented in time, and a subscription whose period is over, are ended or renewed within a number of block hooks bounded by their position in the schedule, unless their parties act before.", "quantifier": "every reachable state, every scheduled contract, every continuation with enough hook runs", "why_tests_cant": "Liveness over all continuations and all contents of the three schedules sharing one action budget per block.", "anchors": ["rent/src/lib.rs: on_initialize, handle_subscription_contract, handle_finished_or_unused_contract"]}
{"id": "C65", "title": "Nobody is locked in", "statement": "Everything that may be undone can be undone by its author in every reachable state: a seller can unlist, an auction not yet started can be cancelled, a contract nobody rents can be cancelled with its deposit returned in full, an offer can be retracted, a cancellable transmission removed, a delegation taken back, an NFT in nobody's use and an empty collection burned, a bid withdrawn before the ending period. The call succeeds and has exactly this effect.", "quantifier": "every reachable state (every finite history of extrinsics, block hooks and block/era changes from an empty chain) and every NFT, auction, contract, offer, transmission, delegation or collection in it", "why_tests_cant": "That a call never fails must be shown for every history that can lead to the state, including all interleavings with the other pallets that share flags and queues.", "anchors": ["marketplace/src/lib.rs: unlist_nft", "auction/src/lib.rs: cancel_auction, remove_bid", "rent/src/lib.rs: cancel_contract, retract_rent_offer", "transmission-protocols/src/lib.rs: remove_transmission_protocol", "nft/src/lib.rs: delegate_nft, burn_nft, burn_collection"]}
{"id": "C66", "title": "An NFT in nobody's use can be used in every way", "statement": "The owner of an NFT that is not on sale, auctioned, rented, in transmission, delegated or being synchronised can transfer, delegate, list, auction, rent out or transmit it, change its royalty (as its creator), give it a secret or turn it into a capsule, whenever the arguments are within the documented rules, the fee can be paid and the schedule has room. The call succeeds and has exactly the stated effect and cost.", "quantifier": "every reachable state, every such NFT, all arguments within the rules", "why_tests_cant": "That no leftover flag, record or schedule entry of an earlier use blocks an NFT must hold after every history of all pallets.", "anchors": ["nft/src/lib.rs: transfer_nft, delegate_nft, set_royalty, add_secret, convert_to_capsule, set_capsule_offchaindata, notify_enclave_key_update", "marketplace/src/lib.rs: list_nft", "auction/src/lib.rs: create_auction", "rent/src/lib.rs: create_contract", "transmission-protocols/src/lib.rs: set_transmission_protocol"]}
{"id": "C67", "title": "Whoever can pay can mint", "statement": "Minting an NFT, secret NFT or capsule (in a collection of the caller with room, or in none), and creating a collection or marketplace, succeeds for everybody who can pay the fee, until the ids are used up. The new item has the next id, belongs to the caller, carries the given data, and nothing else changes but the fee.", "quantifier": "every state, caller and argument", "why_tests_cant": "All callers, balances with locks, collections and limits; a test picks a few.", "anchors": ["nft/src/lib.rs: create_nft, create_secret_nft, create_capsule, create_collection", "marketplace/src/lib.rs: create_marketplace"]}
{"id": "C68", "title": "Owners manage their collections and marketplaces", "statement": "The owner of a collection can close it, limit it once to at least its size, change its data, and add own NFTs while it is open and has room; the owner of a marketplace can transfer it, open or close it, and change each setting. Each call succeeds, changes exactly what it names, and nothing else.", "quantifier": "every state, collection, marketplace and argument", "why_tests_cant": "All states and all argument combinations (five independent settings with three operations each).", "anchors": ["nft/src/lib.rs: close_collection, limit_collection, set_collection_offchaindata, add_nft_to_collection", "marketplace/src/lib.rs: set_marketplace_owner, set_marketplace_kind, set_marketplace_configuration"]}
{"id": "C69", "title": "A listed NFT can be bought by everybody who can pay", "statement": "In every reachable state, everybody but the seller who can spend the price of a listed NFT can buy it at once.", "quantifier": "every reachable state, every listing, every buyer", "why_tests_cant": "Depends on the balances of three payees that change independently of the listing.", "anchors": ["marketplace/src/lib.rs: buy_nft, pay_commission_fee"]}
{"id": "C70", "title": "A running auction can be taken part in", "statement": "Everybody but its creator can bid on a running auction any amount above the highest bid, the start price and the existential deposit that they can pay (only the difference to their standing bid is charged), or end it with the buy-it-now price if no bid has reached it; the creator of an extended auction with a bid can end it at once.", "quantifier": "every reachable state, every auction, bidder and amount", "why_tests_cant": "The bid list, the schedule and the pot must be in order after every history.", "anchors": ["auction/src/lib.rs: add_bid, buy_it_now, end_auction, pay_for_nft"]}
{"id": "C71", "title": "An offered rental can be taken", "statement": "An available contract with automatic acceptance can be rented by every admitted account other than the renter that affords it. One with manual acceptance takes one offer from each such account while there is room, and the renter can accept every offer whose author still affords it. The renter of an adjustable subscription can propose any terms within the rules, and the rentee can accept exactly those terms.", "quantifier": "every reachable state, every contract, rentee, fee kind and acceptance type, every queue and offer list", "why_tests_cant": "That no other state (full queues, other contracts, deposits, stale offers) ever blocks a rental is a statement about all reachable states.", "anchors": ["rent/src/lib.rs: rent, make_rent_offer, accept_rent_offer, change_subscription_terms, accept_subscription_terms", "rent/src/lib.rs: take_rent_and_cancellation_fee, balance_check"]}
{"id": "C72", "title": "A transmission can be reset and consented to", "statement": "The owner can move a resettable transmission to every block within the limit. Every listed account can consent once; the consent that reaches the threshold delivers the NFT at once if there is no block or it has passed, and otherwise schedules it for that block. The last part is false in the code when the schedule is full.", "quantifier": "every reachable state, every protocol, consent list, threshold and block", "why_tests_cant": "Depends on the agreement of schedule, consent records and history in all reachable states.", "anchors": ["transmission-protocols/src/lib.rs: reset_timer, add_consent"]}
{"id": "C73", "title": "An enclave operator can enter, leave and be paid", "statement": "Everybody with the staking amount free can register an unused address, take the registration back, and be assigned by root to a cluster with room. An assigned operator can leave, and after the unbonding time withdraw the whole stake; root can approve every request and remove every staked operator, which affects nobody else. Operators can bond more, take back an excess, ask for updates, and claim exactly the specified reward for every era in the window. The code lacks this for leaving when too many requests are pending, for refunds to a staking amount of 0, for era 0, and for addresses given up by an approved update.", "quantifier": "every reachable state, every operator, address, stake, era, list of reports and pool", "why_tests_cant": "Enabledness in all reachable states depends on the agreement of eight tables, the locks and the history.", "anchors": ["tee/src/lib.rs: register_enclave, unregister_enclave, assign_enclave, approve_enclave_unregistration, force_remove_enclave, withdraw_unbonded, bond_extra, refund_excess, update_enclave, cancel_update, claim_rewards"]}
{"id": "C74", "title": "One report per submitter, the last one counts", "statement": "For each era and operator the reports on record name distinct submitters. A public metrics server can report on every assigned operator while there is room or it replaces a report; its report takes the place of an earlier one under the same name and changes nothing else.", "quantifier": "every reachable state, every server, operator, era and report list", "why_tests_cant": "The absence of duplicates is an invariant over all histories of submissions and clean-ups.", "anchors": ["tee/src/lib.rs: submit_metrics_server_report"]}
{"id": "C75", "title": "Relayers can approve, depositors can send, governance can act", "statement": "Every relayer can vote once on each transfer from a whitelisted chain while its vote is open; below the threshold the vote is recorded and nothing else changes, and the vote that reaches the threshold approves the transfer and issues exactly its amount to its recipient. Everybody can send what they hold beyond locks and existential deposit to a whitelisted chain; the deposit gets the next nonce. Root and the committee can whitelist other chains, name relayers, set fee and threshold and raise nonces. The code lacks this when the threshold is lowered after the votes were cast: a transfer with enough votes from all relayers stays unapproved and nobody can approve it.", "quantifier": "every state, relayer, chain, transfer, threshold and amount", "why_tests_cant": "Enabledness must hold for every set of earlier votes, thresholds, balances and locks.", "anchors": ["bridge/src/lib.rs: vote_for_proposal, deposit, add_chain, set_relayers, set_threshold, set_deposit_nonce, set_bridge_fee", "bridge/src/types.rs: try_to_complete"]}
{"id": "C76", "title": "An expired transfer is dead for ever", "statement": "Once the voting period of a transfer has ended without approval, its votes never change again, nobody can vote on it, and exactly this transfer is never approved in any continuation.", "quantifier": "every reachable state, every transfer with an expired vote, every continuation", "why_tests_cant": "The claim ranges over all futures.", "anchors": ["bridge/src/lib.rs: vote_for_proposal", "bridge/src/types.rs: Proposal"]}
{"id": "C77", "title": "Operations touch only the NFTs they are about", "statement": "Everything recorded about an NFT (owner and data, delegatee, secret, capsule, sale, auction, rent contract, offers, transmission, consents) stays the same in an operation, unless the operation is a call that names it or creates it, a rent call on a contract with it as rent or deposit, or scheduled work that is due for it.", "quantifier": "every reachable state, every NFT, every operation", "why_tests_cant": "A frame property: it is about all NFTs a test does not look at.", "anchors": ["nft/src/lib.rs", "marketplace/src/lib.rs", "auction/src/lib.rs", "rent/src/lib.rs", "transmission-protocols/src/lib.rs"]}
{"id": "C78", "title": "The content of an NFT is fixed while others rely on it", "statement": "Off-chain data and a secret never change. Royalty, secret and capsule change only by the owner's own call (royalty: owner and creator), and not while the NFT is for sale, in an auction, rented, delegated or in transmission.", "quantifier": "every reachable state, every NFT, every operation; every continuation for the permanent part", "why_tests_cant": "Ranges over all operations of all pallets in every state of the NFT.", "anchors": ["nft/src/lib.rs: set_royalty, add_secret, convert_to_capsule, set_capsule_offchaindata"]}
{"id": "C79", "title": "Every call needs the party it belongs to", "statement": "A signed call succeeds only if the signer is the party the call belongs to: the owner of the NFT, collection or marketplace; the seller, auction creator or bidder; the renter, rentee, or an account the contract admits; an account the transmission asks for consent; a registered enclave, operator, metrics server or relayer. Governance calls never succeed for a signed account.", "quantifier": "every reachable state, every signed call of every pallet, every signer", "why_tests_cant": "Tests try one wrong signer in one state; the claim is about every account in every state.", "anchors": ["nft/src/lib.rs", "marketplace/src/lib.rs", "auction/src/lib.rs", "rent/src/lib.rs", "transmission-protocols/src/lib.rs", "tee/src/lib.rs", "bridge/src/lib.rs"]}
{"id": "C80", "title": "Nobody rents from themselves, and the list of accounts binds", "statement": "The rentee of a running contract is not its renter, and is on the contract's list of accounts if it has one.", "quantifier": "every history from genesis", "why_tests_cant": "Whether it holds depends on offers left over from earlier contracts and owners.", "anchors": ["rent/src/lib.rs: rent, make_rent_offer, accept_rent_offer, on_initialize"]}
{"id": "C81", "title": "A waiting secret or capsule can be completed", "statement": "A registered enclave can report its share of every waiting NFT once, if the shares so far came from its own cluster; the share that completes the number ends the wait, and nothing else changes. If enough operators of the cluster all report, in any order, the NFT does not wait any more.", "quantifier": "all reachable states, NFTs, enclaves, numbers of shares, orders of reports", "why_tests_cant": "Completion must work from every combination of earlier reports and in every order; that an NFT waits for ever is a statement about all futures.", "anchors": ["nft/src/lib.rs: add_secret_shard, add_capsule_shard", "tee/src/lib.rs: ensure_enclave, remove_cluster"]}
{"id": "C82", "title": "Ids of clusters and collections are never reused", "statement": "A cluster that was removed, or a collection that was burned, never exists again under the same id.", "quantifier": "all reachable states, ids, and all futures", "why_tests_cant": "It is a statement about every later history.", "anchors": ["tee/src/lib.rs: create_cluster, remove_cluster, get_next_cluster_id", "nft/src/lib.rs: create_collection, burn_collection, get_next_collection_id"]}
{"id": "C83", "title": "What root can order, and exactly what happens then", "statement": "In every reachable state root can set each fee, the report weights, the staking amount and the reward pool to any value; refuse any unassigned registration (freeing its whole stake); reject any requested update, and approve any whose address is still free (the enclave is then exactly as requested); give an assigned operator another free address or URI (the old address stops authenticating and any pending request is dropped); create a cluster (empty, with an id no cluster has) while ids are left, change the type of any cluster and remove any empty one; set an assigned operator's era; and register, retype and remove metrics servers. Each order has exactly that effect and no other. Metrics servers always have distinct addresses and never exceed the limit.", "quantifier": "every reachable state, every operator, cluster, server and value", "why_tests_cant": "That an order is always available depends on every history that leads to the state: the request an operator left pending, the addresses other operators took, the servers and clusters made and removed before.", "anchors": ["tee/src/lib.rs: remove_registration, reject_update, approve_update_enclave, force_update_enclave, create_cluster, update_cluster, remove_cluster, register_metrics_server, unregister_metrics_server, force_update_metrics_server_type, set_report_params_weightage, set_staking_amount, set_daily_reward_pool, update_operator_assigned_era", "nft/src/lib.rs: set_nft_mint_fee, set_secret_nft_mint_fee, set_capsule_mint_fee", "marketplace/src/lib.rs: set_marketplace_mint_fee", "transmission-protocols/src/lib.rs: set_protocol_fee"]}
{"id": "C84", "title": "Events tell the whole story", "statement": "Whoever has read all events of the NFT, marketplace, auction, rent and transmission pallets since genesis, and nothing else, knows exactly what is stored: every NFT with owner, creator, data, royalty, collection and all flags, every delegation, secret and capsule, every collection, marketplace and sale, every auction with all bids and its (extended) end, every claimable refund, every rent contract with terms, rentee and start, every offer, transmission and consent. The same holds for whoever knows the state at some block and reads all events after it. In particular no call or hook changes any of these silently.", "quantifier": "all sequences of operations from any genesis, all configurations, every record of every kind; also any reachable state as starting point", "why_tests_cant": "Tests look at the event of one call in one state; here the fold of all events over a whole history has to equal the storage after every possible history, including settlements of hooks, dropped bids, expired contracts and failed payouts.", "anchors": ["nft/src/lib.rs Event, all deposit_event sites", "marketplace/src/lib.rs Event", "auction/src/lib.rs Event, on_initialize, emit_auction_completed_event", "rent/src/lib.rs Event, on_initialize, handle_finished_or_unused_contract", "transmission-protocols/src/lib.rs Event, on_initialize"]}
{"id": "C85", "title": "Events tell the whole TEE registry", "statement": "Whoever reads every event of the TEE pallet since genesis, together with block numbers and active eras, knows exactly what is stored: pending registrations, enclaves, requested updates, operators who asked to leave, taken addresses, clusters with their kind, assignments with their era, stakes, metrics servers and the parameters. Only the slot number inside a cluster is not told.", "quantifier": "every history of operations by all pallets, from genesis or from any reachable state", "why_tests_cant": "A test compares the last event of a few calls. That no call changes the registry silently, and that replaying events never drifts from storage, ranges over all histories.", "anchors": ["tee/src/lib.rs: Event, deposit_event, register_enclave, unregister_enclave, assign_enclave, force_remove_enclave, approve_update_enclave, force_update_enclave, bond_extra, refund_excess, register_metrics_server"]}
{"id": "C86", "title": "Stake events state true amounts", "statement": "The amount in a Bonded, Unbonded, BondedExtra, RefundedExcess or Withdrawn event is the amount by which the operator's stake was created, released, raised or lowered.", "quantifier": "every reachable state, every operation and every event it deposits", "why_tests_cant": "Tests never change the staking amount between bonding and withdrawing, so the amount of the day and the staked amount agree in them.", "anchors": ["tee/src/lib.rs: Event::Withdrawn, withdraw_unbonded, unregister_enclave, bond_extra, refund_excess, force_remove_enclave"]}
{"id": "C87", "title": "Calls are refused in states that do not allow them", "statement": "A call that changes anything is made in a state that allows it. An NFT that is listed, delegated, offered for rent or rented, or in transmission is not transferred, sold, auctioned, offered for rent, pledged or put in transmission again; neither is one whose secret or capsule is still being synchronised, nor a soulbound one away from its creator. Collections take an NFT only while open and below both limits; marketplaces list only whom their lists let in and only for prices covering a flat commission; auctions respect the configured delay and durations; bids beat the highest bid or the start price and come after the start; rent contracts have positive durations within the limit; protocols name a block in the future within the limit and a consent list without repetition with a threshold it can reach; enclaves, clusters, metrics servers, proposals and nonces are accepted only when free, existing, open or higher, as the call documents.", "quantifier": "every configuration, every world, every origin and every call of every pallet, including calls wrapped in any number of mandates", "why_tests_cant": "Each test refuses one call in one state; the claim covers every combination of flags, limits and amounts for every call, including the combinations reached only through other pallets.", "anchors": ["nft/src/lib.rs: transfer_nft, add_nft_to_collection, limit_collection, add_secret_shard", "marketplace/src/lib.rs: list_nft, buy_nft", "auction/src/lib.rs: create_auction, add_bid, remove_bid", "rent/src/lib.rs: create_contract, make_rent_offer, change_subscription_terms", "transmission-protocols/src/lib.rs: set_transmission_protocol, add_consent", "tee/src/lib.rs: register_enclave, assign_enclave, claim_rewards", "bridge/src/lib.rs: vote_for_proposal, set_deposit_nonce"]}
{"id": "C88", "title": "Nothing is planned beyond the configured limits", "statement": "At every moment every auction starts within the maximal delay and ends within maximal delay plus duration or one grace period from now; every offer to rent lapses within the availability period and every rental or subscription period within the longest duration; every queued transmission happens within the longest transmission time; every bridge proposal expires within its lifetime; and contract creation, rental start and begin of unbonding lie in the past. Hence as long as the current block plus the largest of these limits is below the largest block number, no block arithmetic of the pallets saturates, wraps or underflows.", "quantifier": "every reachable world, after any history of calls, hooks (in any order, run or not), late bids, renewals and resets; every bound m on block numbers", "why_tests_cant": "Late bids, renewals, resets and skipped hooks add to block numbers again and again; the bound must survive every sequence of them.", "anchors": ["auction/src/types.rs: extend_if_necessary", "auction/src/lib.rs: create_auction", "rent/src/lib.rs: create_contract, rent, handle_subscription_contract", "rent/src/types.rs: has_ended, percentage_of_completion", "transmission-protocols/src/lib.rs: set_transmission_protocol, reset_timer", "bridge/src/lib.rs: vote_for_proposal", "tee/src/lib.rs: withdraw_unbonded"]}
{"id": "C89", "title": "Events tell the bridge's books, but not for whom votes are", "statement": "An observer who sees only the events of the bridge and staking-rewards pallets can at every moment tell the whitelisted chains and their nonces, the relayers, threshold, fee and extra reward, how many transfers of each nonce every relayer voted for, and how many were approved. They cannot tell recipient and amount of a transfer into the chain: the events do not name them.", "quantifier": "every history of operations, of all pallets, in any order, including nested mandates and failing calls", "why_tests_cant": "Tests look at single events after single calls; that the stream of events determines the state is a claim about all histories, and that something is not told is a claim about pairs of histories.", "anchors": ["bridge/src/lib.rs: Event, vote_for_proposal, deposit, set_threshold, add_chain, set_relayers, set_deposit_nonce, set_bridge_fee", "staking-rewards/src/lib.rs: set_session_extra_reward_payout", "mandate/src/lib.rs: mandate"]}
{"id": "C90", "title": "Events account for every token that moves", "statement": "An observer who knows balances, marketplaces, auctions, contracts and fee settings at some moment and afterwards reads only the events of the NFT, marketplace, auction, rent and transmission pallets can tell every account's balance and what the fee collector has received: each event stands for a definite list of payments, and no tokens move without an event and no event lies about a payment. Plain transfers, the bridge, TEE rewards, transaction fees and staking rewards are outside.", "quantifier": "every reachable state, every operation, every history, every account other than the two pallet pots", "why_tests_cant": "a test checks the events of one call; the claim is that no sequence of calls and hook runs over any state moves a token that the events do not account for", "anchors": ["nft/src/lib.rs: Event", "marketplace/src/lib.rs: NFTSold, NFTListed", "auction/src/lib.rs: AuctionCompleted, BidAdded, BidRemoved, BalanceClaimed", "rent/src/lib.rs: ContractStarted, ContractRevoked, ContractEnded, ContractSubscriptionPeriodStarted", "transmission-protocols/src/lib.rs: ProtocolSet"]}
{"id": "C91", "title": "Rent paid for a period holds for the period", "statement": "A rentee who has paid rent, by starting a contract or for a further period of a subscription, is not charged again for that contract, and the contract does not end other than by revocation, before the paid term is over: two payments lie at least one term apart. From events alone everybody can tell until when the rent of each NFT is paid, and this is exactly the block at which the hook takes its next turn on the contract.", "quantifier": "all histories from genesis of any calls by any accounts and any block hooks, all contracts, all pairs of payments", "why_tests_cant": "The next charge is whatever block the schedule holds after arbitrary interleavings of renewals, changed terms, other contracts' turns and hook runs cut short by the action limit; a test follows one schedule.", "anchors": ["rent/src/lib.rs: on_initialize, handle_subscription_contract, rent, accept_rent_offer, change_subscription_terms, accept_subscription_terms", "rent/src/types.rs: RentingQueues"]}
{"id": "C92", "title": "Block hooks do bounded work", "statement": "In one block the auction hook completes at most ActionsInBlockLimit auctions, the transmission hook transmits at most ActionsInBlockLimit NFTs, the rent hook ends or renews at most ActionsInBlockLimit contracts (each at least one if due), none of them takes more entries from its schedule than that, and the TEE hook drops the records of at most one era.", "quantifier": "all reachable states, all contents of the schedules, all limits", "why_tests_cant": "The number of actions depends on everything that is due at once, on which settlements fail and on the limits; tests have few entries and the limit is far away.", "anchors": ["auction/src/lib.rs: on_initialize", "rent/src/lib.rs: on_initialize", "transmission-protocols/src/lib.rs: on_initialize", "tee/src/lib.rs: on_initialize, clear_old_era"]}
{"id": "C93", "title": "What can be taken back leaves no trace", "statement": "Whoever has done one of the following can undo it in the next call, and then all that the chain stores is as before, except for fees paid, used-up ids and the commission an auction took over: listing an NFT (unlist), delegating one that is not delegated (take back), creating an auction that has not begun (cancel), offering to rent (retract), offering for rent an NFT without left-over offers (cancel; tokens and NFTs deposited are back; cancelling drops left-over offers too), setting a cancellable transmission (remove), sending an NFT that is not soulbound (the receiver sends it back), creating a collection or NFT (burn), a first bid that displaced nobody, outside ending and grace period (remove; all tokens are back), registering an enclave (unregister; the lock is gone), asking for an update of an enclave (cancel).", "quantifier": "all reachable states, all accounts, all arguments of the first call", "why_tests_cant": "A forgotten flag, queue entry, offer list or lock shows only in the state that was not asserted, for the combination of protocol, deposit and duration that was not tried.", "anchors": ["marketplace/src/lib.rs: list_nft, unlist_nft", "nft/src/lib.rs: delegate_nft, create_nft, burn_nft, create_collection, burn_collection, transfer_nft", "auction/src/lib.rs: create_auction, cancel_auction, add_bid, remove_bid", "rent/src/lib.rs: create_contract, cancel_contract, make_rent_offer, retract_rent_offer", "transmission-protocols/src/lib.rs: set_transmission_protocol, remove_transmission_protocol", "tee/src/lib.rs: register_enclave, unregister_enclave, update_enclave, cancel_update"]}
{"id": "C94", "title": "A stake can always be got back", "statement": "A stake lock always belongs to a stake on record of the same account and is not smaller. Whoever has a stake can either drop the registration and is free at once, or is assigned and can start unbonding unless the list of leaving operators is full, or is unbonding. Unbonding once begun counts from its block whatever anybody does, until the owner withdraws or root removes the enclave by force; when the time is over a withdrawal succeeds and nothing stays locked.", "quantifier": "all reachable states, all operators, all continuations", "why_tests_cant": "A stake could be stranded by any order of registration, assignment, unregistration, approval, forced removal, restaking and withdrawal; tests follow the usual order.", "anchors": ["tee/src/lib.rs: register_enclave, unregister_enclave, withdraw_unbonded, force_remove_enclave, approve_enclave_unregistration, bond_extra, refund_excess"]}
{"id": "C95", "title": "A price seen is the price paid", "statement": "A call whose arguments or whose governance-set fee name a price (buying, bidding, buying at once, creating NFTs, marketplaces, contracts and transmissions, bridge deposits, plain transfers) never costs its sender more than that, whatever others get included before it; those fees change only by governance. A listing and an auction are made at the listing fee and commission the marketplace showed, and a rent contract starts for the fee and deposit it showed, however much later the call is included.", "quantifier": "every reachable state, every signed call and sender, and every series of operations of any accounts between looking at a price and paying it", "why_tests_cant": "The danger is a schedule: somebody else's call is ordered between the look and the payment. A test fixes one order; the claim is about all series of operations in between.", "anchors": ["marketplace/src/lib.rs: buy_nft, list_nft, pay_listing_fee, set_marketplace_configuration", "auction/src/lib.rs: add_bid, buy_it_now, create_auction, pay_for_nft", "rent/src/lib.rs: rent, take_rent_and_cancellation_fee, create_contract, cancel_contract", "bridge/src/lib.rs: deposit", "nft/src/lib.rs: create_nft, add_secret, convert_to_capsule", "transmission-protocols/src/lib.rs: set_transmission_protocol"]}
{"id": "C96", "title": "A block hook reports at least the storage writes it makes", "statement": "The weight that each block hook returns counts at least as many storage writes as the number of storage items whose content the hook has changed, and it is bounded by the configured limits alone.", "quantifier": "every reachable state of every valid configuration, for each of the four hooks (auction, rent, transmission protocols, tee)", "why_tests_cant": "a test runs a hook on one schedule; the property is about every schedule, every number of bidders, deposits and reports, and every order in which payouts fail", "anchors": ["auction/src/lib.rs on_initialize", "rent/src/lib.rs on_initialize", "transmission-protocols/src/lib.rs on_initialize", "tee/src/lib.rs on_initialize, clear_old_era"]}
{"id": "C97", "title": "No account is special", "statement": "If all accounts are consistently given other names - in the configured pallet accounts, in the state, in the origin and in the arguments - every call, block hook and payout does exactly the same thing up to the renaming: it succeeds or fails alike, with the same error. On one and the same chain any two users can exchange their roles. No account other than the configured pallet accounts is treated differently from any other.", "quantifier": "all injective renamings of accounts, all configurations, states, origins, calls, hooks and histories", "why_tests_cant": "A test uses a handful of fixed accounts; that nothing depends on which account it is must hold for every permutation of all accounts in every state.", "anchors": ["nft/src/lib.rs", "marketplace/src/lib.rs", "auction/src/lib.rs", "rent/src/lib.rs", "transmission-protocols/src/lib.rs", "tee/src/lib.rs", "bridge/src/lib.rs", "staking-rewards/src/lib.rs", "mandate/src/lib.rs"]}
{"id": "C98", "title": "Byte strings are opaque", "statement": "Off-chain data, secret and capsule data, marketplace data, enclave addresses on the web and recipients on other chains are stored and never interpreted, except that an enclave's web address must not be empty: two histories that differ only in the contents of such strings have the same successes, failures and errors, the same balances, owners, flags and queues. Each stored string is one the sender gave.", "quantifier": "all pairs of states and histories that differ only in the contents of byte strings", "why_tests_cant": "Non-interference is a property of pairs of executions, for every pair of byte strings and every history.", "anchors": ["nft/src/lib.rs: create_nft, add_secret, convert_to_capsule, set_capsule_offchaindata", "marketplace/src/lib.rs: set_marketplace_configuration", "tee/src/lib.rs: register_enclave, update_enclave", "bridge/src/lib.rs: deposit"]}
{"id": "C99", "title": "Nothing outlives what it belongs to", "statement": "Storage holds no leftovers. A sale, auction, rent contract, transmission protocol, delegation, secret, capsule, list of shards, collection membership, schedule entry, list of consents, list of offers or noted commission exists only while the NFT and the deal it belongs to exist; a pending request, cluster seat, assignment era, enclave address or stake exists only while its operator is registered or assigned (or the stake is being unbonded); reports and paid rewards are kept for the configured number of eras only.", "quantifier": "all reachable states; for the per-era tables all histories in which the active era rises by one at a time and the block hook runs in between", "why_tests_cant": "A leftover is made by one particular way of ending a deal (expiry, forced end, cancellation, burning, removal) after one particular prehistory; tests look at the records of the call under test and cannot run all endings after all prehistories.", "anchors": ["auction/src/lib.rs: AuctionCommissionFee, cancel_auction, end_auction", "rent/src/lib.rs: Offers, create_contract, cancel_contract", "transmission-protocols/src/lib.rs: OnConsentData, AtBlockQueue", "nft/src/lib.rs: burn_nft", "tee/src/lib.rs: clear_old_era, EnclaveAccountOperator, StakingLedger"]}
{"id": "C100", "title": "The life cycle of an NFT", "statement": "At every moment an NFT id is in exactly one use: it does not exist, or the NFT is free, for sale, in an auction, offered for rent, rented, delegated, or in transmission. Whatever is executed, it keeps its use or takes one of a fixed list of ways: only its owner puts it to a use, lends it or burns it; a sale ends by its owner or by a buyer who is not the seller at the listed price; an auction ends by its creator before the start or, once extended and with a bid, after it, by someone else buying at the fixed price, or by the scheduled work after its end; an offer for rent ends by its owner, by somebody renting it, or by the scheduled work when it has expired; a rent ends by the rentee, by the renter if they may revoke, or by the scheduled work at the end of the duration or of a period; a delegation ends by the owner; a transmission ends by its owner if cancellable, by the last consent, or by the scheduled work at its block. Through any history an NFT gets from one use to another only by being free in between, except that one offered for rent gets rented.", "quantifier": "every reachable state, every operation and every history, every NFT id", "why_tests_cant": "A test walks one path through the uses; that there is no other way between two uses, for any call, signer, hook or history, needs a case analysis over all operations in all reachable states.", "anchors": ["nft/src/lib.rs", "marketplace/src/lib.rs", "auction/src/lib.rs", "rent/src/lib.rs", "transmission-protocols/src/lib.rs"]}
{"id": "C101", "title": "Every list stays within its limit", "statement": "At every moment every list that calls add to one by one is within its configured limit: the NFTs of a collection (also its own limit), the shares received for a secret or capsule, the bids of an auction, the schedules of auctions, of rent contracts (all three together) and of transmissions, the offers for a contract, the consents to a transmission, the enclaves of a cluster, the operators waiting to leave, the metrics servers, the reports on an operator for an era, and the votes on a bridge transfer.", "quantifier": "every reachable state, every limit", "why_tests_cant": "A test fills one list once; that no order of additions, removals, replacements, hooks and root calls ever exceeds a limit needs an invariant over all histories.", "anchors": ["nft/src/lib.rs", "auction/src/types.rs: BidderList, DeadlineList", "rent/src/types.rs: RentingQueues", "rent/src/lib.rs: make_rent_offer", "transmission-protocols/src/lib.rs", "tee/src/lib.rs", "bridge/src/lib.rs: vote_for_proposal"]}
{"id": "C102", "title": "A call depends on and changes only what it is about", "statement": "Whether a signed call is accepted, with which error it is refused, and what it does depends on nothing but the clock, the governance settings and the pieces of state it is about: the NFT it names with everything stored under its id, the collection or marketplace concerned, the accounts that pay or are paid, the refunds of an auction's bidders, the pot of the pallet where tokens go through it, the schedule of its pallet where it starts, ends or moves something, and an id counter where it creates something. In two states that agree on these it has the same outcome. And when it is accepted it changes nothing else, apart from the chain's total issuance and collected fees; marketplaces (for sales and auctions), the enclave registry (for shares) and all but the NFT itself (for rent offers) are only looked at.", "quantifier": "every signed call, every pair of states that agree on what the call is about, every state", "why_tests_cant": "Tests inspect the few storage items they think of; that nothing else influences a call or is changed by it ranges over every other item and all its values.", "anchors": ["nft/src/lib.rs", "marketplace/src/lib.rs", "auction/src/lib.rs", "rent/src/lib.rs", "transmission-protocols/src/lib.rs", "tee/src/lib.rs", "bridge/src/lib.rs"]}
{"id": "C103", "title": "Calls about different things do not get in each other's way", "statement": "Whatever other signed calls get in before a call, accepted or refused, as long as none of them may change what the call is about, the call has the same outcome as without them. If neither of two signed calls may change what the other is about, each has the same outcome whether it comes first or second, and both orders end in states that agree on everything but the totals of issuance and collected fees.", "quantifier": "every state, every signed call, every finite list of other signed calls, every pair of calls", "why_tests_cant": "Block producers choose the order of calls; that order is irrelevant for unrelated calls ranges over all pairs of calls, all states and all interleavings.", "anchors": ["nft/src/lib.rs", "marketplace/src/lib.rs", "auction/src/lib.rs", "rent/src/lib.rs", "transmission-protocols/src/lib.rs", "tee/src/lib.rs", "bridge/src/lib.rs"]}
{"id": "C104", "title": "Nobody can shut others out", "statement": "Whoever has an NFT free for it can start an auction, a timed transmission or a rental, and make an offer for a rental, whatever other people do. (Fails: the limits are shared by all. Accounts that hold as many auctions, contracts or timed transmissions as the chain allows, at the cost of minting the NFTs, keep everybody else out for as long as those run; and offers, which bind nobody to anything, can fill the list of offers for a contract. What holds: nobody is refused for lack of room while there is room.)", "quantifier": "every reachable state, every finite continuation in which the accounts that fill a list do nothing, every caller and all arguments", "why_tests_cant": "A test can show one refusal; that no sequence of others' acts makes room ranges over all continuations.", "anchors": ["auction/src/lib.rs: create_auction", "auction/src/types.rs: DeadlineList", "rent/src/lib.rs: create_contract, make_rent_offer", "rent/src/types.rs: RentingQueues", "transmission-protocols/src/lib.rs: set_transmission_protocol"]}
{"id": "C105", "title": "A subscription is paid for at most as often as agreed", "statement": "From the moment an account rents a subscription with period P and maximal duration M, and as long as it accepts no new terms, it is charged the rent at most ceil(M/P) times in all, the first payment included. At any later point the remaining charges are bounded the same way by what is left of the maximal duration after the time already paid for, and a subscription whose terms the renter has changed is not charged again unless the rentee accepts them. A rental of fixed duration is charged once.", "quantifier": "all histories of calls and hooks from genesis, all stretches of their events, all subscriptions with all periods, durations, fees and numbers of hook actions per block", "why_tests_cant": "The number of charges depends on when the hook gets to the contract, on how often each block the hook loops, and on all calls in between; tests see a few schedules, the bound must hold for all of them.", "anchors": ["rent/src/lib.rs: on_initialize, handle_subscription_contract, accept_subscription_terms, change_subscription_terms", "rent/src/types.rs: has_ended, terms_changed"]}
{"id": "C106", "title": "Whoever bids gets NFTs or their tokens back", "statement": "Over any history, what an account has in standing bids and unclaimed refunds at the start, plus what it hands over for new and raised bids, equals what it has in them at the end, plus what it took back or claimed, plus the winning bids for which it got NFTs. The account that an event names as the winner owns the NFT once the operation is done. So an account that has no bids and refunds left has got back, or won NFTs for, every token it ever bid.", "quantifier": "every reachable state, every sequence of calls, blocks and hook runs of any length, every account", "why_tests_cant": "A test follows a few bids through one auction. The claim is about any number of auctions, bidders, raised, dropped and withdrawn bids, cancelled and aborted auctions, in any order.", "anchors": ["auction/src/lib.rs: add_bid, remove_bid, cancel_auction, end_auction, buy_it_now, claim, on_initialize, add_claim", "auction/src/types.rs: BidderList"]}
{"id": "C107", "title": "A rental deposit comes back unless its owner breaks off the rental", "statement": "Over any history, the tokens an account has deposited in rent contracts at the start, plus what it deposits by offering contracts and renting, equals what it has deposited in them at the end, plus what it got back, plus what it forfeited. It forfeits only by revoking a contract itself, and then only what it has not earned back; the other party gets exactly that. So an account that revokes nothing gets every deposit back once its contracts are over.", "quantifier": "every reachable state, every sequence of calls, blocks and hook runs of any length, every account, every kind of contract and deposit in tokens", "why_tests_cant": "A test ends one contract in one way. The claim is about any number of contracts of an account, as renter and as rentee, offered, started, changed, renewed, expired, ended, cancelled and revoked in any order, with hooks that end many contracts in one block.", "anchors": ["rent/src/lib.rs: create_contract, rent, accept_rent_offer, cancel_contract, revoke_contract, change_subscription_terms, accept_subscription_terms, on_initialize, handle_finished_or_unused_contract, handle_subscription_contract, return_cancellation_fee, return_flexible_fee", "rent/src/types.rs: CancellationFee, percentage_of_completion"]}
{"id": "C108", "title": "Calls without transaction fee are limited by calls with one", "statement": "The only signed calls that cost no transaction fee are accepted reports of registered enclaves that they stored a share of a secret or capsule. Over any history, the reports accepted for one NFT's secret or capsule are at most those missing at the start plus ShardsNumber for each fee-paying call that made it wait for shares. From the start of the chain on, all free calls together are at most ShardsNumber times the fee-paying calls that add a secret, convert to a capsule or ask for new shares. For one NFT's secret at most ShardsNumber reports are ever accepted.", "quantifier": "every reachable state, every sequence of calls, blocks and hook runs of any length, every NFT, every configured number of shards", "why_tests_cant": "A test sees that one report is free and a repeated one refused. That no schedule of reports, burns, conversions and key updates lets enclaves flood blocks with unpaid calls is a statement about all histories.", "anchors": ["nft/src/lib.rs: add_secret_shard, add_capsule_shard, add_secret, create_secret_nft, convert_to_capsule, create_capsule, notify_enclave_key_update, burn_nft", "mandate/src/lib.rs: mandate"]}
{"id": "C109", "title": "The order in which the pallets act at the start of a block does not matter", "statement": "At the start of a block the auction, rent, transmission and TEE pallets each settle what has come due. The runtime decides in which order. Whatever the order, the state after all of them is the same: every balance, refund, NFT, contract, auction, transmission, schedule, enclave record and the total issuance.", "quantifier": "all reachable states, all pairs of orders of the hooks (also repeated), all signed calls before or after a hook", "why_tests_cant": "A test runtime fixes one order of pallets and tests run one hook at a time; independence of the order has to hold for every combination of auctions, rentals and transmissions that come due in the same block.", "anchors": ["auction/src/lib.rs: Hooks::on_initialize", "rent/src/lib.rs: Hooks::on_initialize", "transmission-protocols/src/lib.rs: Hooks::on_initialize", "tee/src/lib.rs: Hooks::on_initialize"]}
{"id": "C110", "title": "Having more tokens never makes a call fail or act differently", "statement": "If a signed call is accepted, it is also accepted in every state that differs only in that some accounts own more tokens or have less locked by other pallets; it does the same to NFTs, collections, marketplaces, auctions, contracts, transmissions, enclaves and the bridge, collects the same fee, locks the same stake, and again no account owns less. The same holds for lists of calls of any length, hence for a gift received from outside before them. (A vote for a bridge transfer is accepted too, but may mint less when the total issuance is close to its limit.) Block hooks are different: a subscription that would have ended for lack of tokens goes on.", "quantifier": "all pairs of states that differ in free balances and outside locks only, all signers, all calls of all pallets with all arguments, all lists of calls", "why_tests_cant": "It compares two executions for every call and every pair of balances, including locks, the existential deposit and accounts that are emptied.", "anchors": ["nft/src/lib.rs: balance_check, create_nft_helper", "auction/src/lib.rs: add_bid, buy_it_now, pay_for_nft", "rent/src/lib.rs: take_rent_and_cancellation_fee, handle_subscription_contract", "marketplace/src/lib.rs: buy_nft", "tee/src/lib.rs: register_enclave, bond_extra", "bridge/src/lib.rs: deposit, vote_for_proposal"]}
{"id": "C111", "title": "A better report never lowers a reward", "statement": "If the metrics reports on an operator for an era are replaced by better ones (each of the five values reached by some report), the operator's reward for that era does not fall; reports on other operators or other eras do not affect it at all; and a report that is accepted makes no operator's record worse unless it replaces a better one by the same submitter. An operator who was reported on is not paid less than one nobody reported on.", "quantifier": "all states, operators, eras, lists of reports and weights", "why_tests_cant": "It compares pairs of executions over all report values, weights, pool sizes and roundings.", "anchors": ["tee/src/lib.rs: claim_rewards, calculate_highest_params, calculate_weighted_sum, submit_metrics_server_report"]}
{"id": "C112", "title": "Machine integers make no difference", "statement": "Computing with the bounded integers of the code (wrapping + and - on block numbers, saturating sums of auction refunds, u8 report values multiplied as u32, operator counts cast to u32) never changes a result: as long as the block number plus the longest configured period is below 2^32 - 1, the auctions owe at most 2^128 - 1 and there are fewer than 2^32 operators, every call has the same outcome, and every operation the same effect, as with unbounded numbers. At the very last block numbers there is a difference: an offer to rent ends at once.", "quantifier": "all configurations, all reachable states in range, all origins, calls with arguments of the code's types and operations, and all histories of them that stay in range", "why_tests_cant": "Tests run at small block numbers and amounts, far away from any limit, and cannot cover all states from which an intermediate sum or difference could wrap.", "anchors": ["rent/src/lib.rs:create_contract", "rent/src/lib.rs:handle_subscription_contract", "rent/src/types.rs:percentage_of_completion", "auction/src/lib.rs:add_claim", "auction/src/types.rs:extend_if_necessary", "transmission-protocols/src/lib.rs:set_transmission_protocol", "tee/src/lib.rs:calculate_weighted_sum", "tee/src/lib.rs:withdraw_unbonded", "bridge/src/lib.rs:vote_for_proposal"]}
{"id": "C113", "title": "No block number is special", "statement": "Nothing depends on the absolute block number. If a state with all the starts, ends, deadlines and expiries it holds, and all block numbers among the arguments of calls, are moved the same number of blocks into the future, every call has the same outcome (the same error, or the same effect moved by that number), and so has every block hook and every history. A chain launched at a later block gives everybody the same tokens, locks and NFTs.", "quantifier": "all configurations, all states, all numbers of blocks, all calls from all origins, all operations and all histories", "why_tests_cant": "Tests start at block 1 and never compare two runs; the property relates every run to infinitely many others.", "anchors": ["auction/src/lib.rs:create_auction", "auction/src/lib.rs:on_initialize", "rent/src/lib.rs:on_initialize", "rent/src/types.rs:has_ended", "transmission-protocols/src/lib.rs:on_initialize", "transmission-protocols/src/types.rs:is_cancellable", "tee/src/lib.rs:withdraw_unbonded", "bridge/src/lib.rs:vote_for_proposal"]}
{"id": "C114", "title": "Time matters only to the calls about time, and idle blocks change nothing", "statement": "Apart from creating, cancelling, bidding on, withdrawing a bid from and buying from an auction, creating, revoking, entering and accepting rent contracts, transmissions, unregistering an enclave and withdrawing its bond, and voting on the bridge, every call does the same at every block: it fails with the same error or has the same effect. Any number of blocks in which nothing scheduled falls due, with all that the pallets do at the start of each, changes nothing but the block number, so that such a call may as well be made after them. The pallets' work at the start of a block can be repeated without effect once nothing is overdue.", "quantifier": "all configurations, all states, all blocks, all calls from all origins, and all sequences of block starts and hooks in any order", "why_tests_cant": "Tests make each call at one block; that the block does not matter relates infinitely many executions.", "anchors": ["nft/src/lib.rs", "marketplace/src/lib.rs", "auction/src/lib.rs:on_initialize", "rent/src/lib.rs:on_initialize", "transmission-protocols/src/lib.rs:on_initialize", "tee/src/lib.rs:on_initialize", "mandate/src/lib.rs:mandate"]}
{"id": "C115", "title": "Exactly when a call is accepted", "statement": "A call is accepted if and only if its origin may make it, the objects it names are in a state that allows it, there is room for what it creates (identifiers, list places, unlocked funds to bond or to back an offer), and all payments it makes can be made one after the other. A payment can be made if the payer has the amount besides what is locked, keeps an existential deposit unless the payment may empty the account and nothing on it is locked, and the payee ends with an existential deposit. A mandate is accepted whatever becomes of the call in it, unless that crashes for want of a cluster number.", "quantifier": "all configurations, all reachable states, all calls with all arguments, and all origins (root, committee, and signed by any account but the pots of the pallets, which have no keys)", "why_tests_cant": "Tests show single acceptances and refusals; that no other reason for refusal exists, and that none of the listed ones is missed, is a claim about all states and arguments.", "anchors": ["nft/src/lib.rs", "marketplace/src/lib.rs", "auction/src/lib.rs", "rent/src/lib.rs", "transmission-protocols/src/lib.rs", "tee/src/lib.rs", "bridge/src/lib.rs", "staking-rewards/src/lib.rs", "mandate/src/lib.rs"]}
{"id": "C116", "title": "Lower fees never make a call fail", "statement": "A signed call that is accepted is accepted as well after root or the committee has lowered any fee: for minting an NFT, adding a secret, converting to a capsule, creating a marketplace, setting a transmission protocol of any kind, or bridging.", "quantifier": "all configurations, all reachable states, all fee changes to a smaller amount, and all signed calls", "why_tests_cant": "The claim relates two executions for every state, every fee and every call.", "anchors": ["nft/src/lib.rs:set_nft_mint_fee", "nft/src/lib.rs:set_secret_nft_mint_fee", "nft/src/lib.rs:set_capsule_mint_fee", "marketplace/src/lib.rs:set_marketplace_mint_fee", "transmission-protocols/src/lib.rs:set_protocol_fee", "bridge/src/lib.rs:set_bridge_fee"]}
{"id": "C117", "title": "An error states a true reason", "statement": "When a call is refused with an error, what the error says is true of the call and the chain at that moment: the NFT, collection, marketplace, auction, contract, protocol, enclave or chain it calls missing does not exist, the flag it names is set, the caller it calls a stranger is one, the amount it calls too low is too low, the list it calls full is full, the payment it calls impossible is impossible. And each such reason alone refuses the call: as long as it holds, the call cannot succeed.", "quantifier": "all configurations, all reachable states, all origins except the pallets' own accounts, all calls and all errors", "why_tests_cant": "Tests check one error in one state; the claim is about every error of every call in every reachable state, including states that a later change brings about, where an earlier check may hide or change the meaning of a later one.", "anchors": ["nft/src/lib.rs:Error", "marketplace/src/lib.rs:Error", "auction/src/lib.rs:Error", "rent/src/lib.rs:Error", "transmission-protocols/src/lib.rs:Error", "tee/src/lib.rs:Error", "bridge/src/lib.rs:Error"]}
{"id": "C118", "title": "A call made twice in a row counts once", "statement": "If an account makes the same call with the same arguments twice in a row, for example because a wallet sent it twice, the second call is refused or accepted without changing anything stored: nothing is paid, moved, voted, listed or queued a second time. The only exceptions are the calls that make something new (an NFT, secret NFT, capsule, collection, marketplace or cluster), send a plain transfer or make a bridge deposit; for those each accepted signed call does change something, unless it is a transfer of nothing or to oneself.", "quantifier": "every reachable state, every call of every pallet with all arguments, every origin (signed, root, external, and mandates of any nesting)", "why_tests_cant": "Tests repeat a few calls in a few states; whether some call with some arguments in some state pays or counts twice depends on every state the calls can meet.", "anchors": ["nft/src/lib.rs: all calls", "marketplace/src/lib.rs: all calls", "auction/src/lib.rs: all calls", "rent/src/lib.rs: all calls", "transmission-protocols/src/lib.rs: all calls", "tee/src/lib.rs: all calls", "bridge/src/lib.rs: vote_for_proposal, deposit"]}
{"id": "C119", "title": "Raising limits in an upgrade is safe", "statement": "If a runtime upgrade raises limits (lengths of lists and queues, the largest duration and delay of an auction, the largest time of a transmission) or lowers minimal times (minimal auction duration, bonding time of stakes, the time before the end in which bids cannot be withdrawn), every call that was accepted is still accepted with the very same result, what happens at the start of a block is the same, and a chain that is upgraded this way any number of times is only ever in states that a chain with the latest limits reaches without any upgrade, so that every guarantee stays in force across upgrades.", "quantifier": "all pairs of configurations of which the second is looser, all states and calls (reachable states for the hooks), all histories with any number of upgrades", "why_tests_cant": "Tests run with one configuration; the claim compares every pair of configurations in every state and over every history.", "anchors": ["nft/src/lib.rs:Config", "auction/src/lib.rs:Config", "rent/src/lib.rs:Config", "transmission-protocols/src/lib.rs:Config", "tee/src/lib.rs:Config", "bridge/src/lib.rs:Config"]}
{"id": "C120", "title": "The size a call is charged by covers the lists it rewrites", "statement": "The fee of a call grows with a size, the number of entries of some list on chain. Whatever list (NFTs of a collection, bids of an auction, offers to rent, consents, the schedules of auctions, rentals and transmissions) an accepted call rewrites, the size it is charged by is at least the number of entries of that list; a call with a constant weight rewrites none of them.", "quantifier": "every reachable state, every accepted signed call, every list", "why_tests_cant": "Tests do not look at weights, and the lists are short in them; the claim compares two lists of any length in every reachable state.", "anchors": ["nft/src/lib.rs: #[pallet::weight] of create_nft, burn_nft, add_nft_to_collection, create_secret_nft, create_capsule", "auction/src/lib.rs: #[pallet::weight] of create_auction, cancel_auction, end_auction, add_bid, remove_bid, buy_it_now", "rent/src/lib.rs: #[pallet::weight] of all calls", "rent/src/types.rs: RentingQueues::size", "transmission-protocols/src/lib.rs: #[pallet::weight] of all calls", "transmission-protocols/src/types.rs: Queue::size"]}
{"id": "C121", "title": "Which declared errors a caller can meet", "statement": "A refused call of a pallet is answered with an error that pallet declares or with one of five errors common to all pallets (bad origin, and four of the balances pallet). Of the declared errors, seventeen are never returned by any call in any reachable state (five of the removed capsule reversion, two of collections, two of the marketplace, two of auctions, one of rent, two of transmissions, three of enclaves); every other declared error is returned by some call after some history. An application that handles the others handles all.", "quantifier": "every configuration, every reachable state, every origin that can sign, every call of the seven pallets that declare errors with arguments that fit their types, every declared error", "why_tests_cant": "That an error is never returned is a claim about every call in every reachable state; several of the seventeen have a check in the code and only invariants rule them out.", "anchors": ["#[pallet::error] of nft/src/lib.rs, marketplace/src/lib.rs, auction/src/lib.rs, rent/src/lib.rs, transmission-protocols/src/lib.rs, tee/src/lib.rs, bridge/src/lib.rs"]}
{"id": "C122", "title": "What governance sets it can set back", "statement": "After an accepted call of governance that sets a fee, an amount, the weights of reports, the era an operator counts from, the kind of a cluster or of a metrics server, the servers, the threshold, the relayers or the extra payout, the same origin can put the old value back at once, and then nothing on chain tells the difference (but perhaps the order of the servers). The only settings that are for good are: a chain added to the bridge, a number used for a cluster, the removal of a cluster, and leaving a threshold of zero; no history whatever undoes these. All other calls of governance decide on a member of the enclave registry or raise a nonce.", "quantifier": "every reachable state, every call of root or the external origin; for the settings that are for good, every history afterwards", "why_tests_cant": "It is a claim about every call in every state and, for what cannot be undone, about all continuations.", "anchors": ["set_nft_mint_fee, set_secret_nft_mint_fee, set_capsule_mint_fee, set_marketplace_mint_fee, set_protocol_fee", "tee/src/lib.rs: create_cluster, update_cluster, remove_cluster, register_metrics_server, unregister_metrics_server, force_update_metrics_server_type, set_report_params_weightage, set_staking_amount, set_daily_reward_pool, update_operator_assigned_era", "bridge/src/lib.rs: set_threshold, add_chain, set_relayers, set_deposit_nonce, set_bridge_fee", "staking-rewards/src/lib.rs: set_session_extra_reward_payout"]}
{"id": "C123", "title": "First come, first served", "statement": "Each of the five schedules (auctions to settle, fixed rentals to end, subscriptions to renew, unused contracts to expire, NFTs to transmit) is worked through in the order of the blocks and, for the same block, in the order in which the entries were made. If an entry waits for a block not later than another's and was made before it, then by the time the hook takes out the other one the first has left the schedule, at the latest in the same run, whatever happens in between. The one exception is an owner who sets a resettable timer to the block it is already set to: this gives up the place. Between the three schedules of rentals there is no such order: a subscription can be renewed before a rental that was due earlier ends.", "quantifier": "every reachable state, every pair of entries of one schedule, every sequence of operations", "why_tests_cant": "The order must survive every interleaving of calls that insert, remove and move entries, at any backlog.", "anchors": ["auction/src/types.rs: DeadlineList insert/pop_next/update", "rent/src/types.rs: Queue, RentingQueues", "transmission-protocols/src/types.rs: Queue", "on_initialize of auction, rent, transmission-protocols"]}
{"id": "C124", "title": "Only the last setting counts", "statement": "Calls that set a value (royalty, delegation, capsule and collection data, kind and configuration of a marketplace, a bid, changeable subscription terms, the timer of a transmission protocol, a metrics report, every setting of governance) leave no trace once the same origin sets the value again: whatever earlier settings went before, accepted or rejected, the last call is accepted or rejected for the same reason and leads to the same state (apart from the record of events) as if the earlier ones had not been made. In particular raising a bid in steps ends where bidding at once ends: the same payment, the same list of bids, the same end of the auction, the same claims of those displaced.", "quantifier": "every reachable state, every origin, every call that sets a value and every list, of any length, of earlier calls that set the same value", "why_tests_cant": "The claim compares two histories for every starting state and every list of settings. A value derived from the old one (a payment of the difference, an extended end, a displaced bidder, a schedule) may be path dependent only in rare states; a test compares one pair of histories.", "anchors": ["auction/src/lib.rs: add_bid", "auction/src/types.rs: insert_bid, extend_if_necessary", "marketplace/src/lib.rs: set_marketplace_configuration", "rent/src/lib.rs: change_subscription_terms", "transmission-protocols/src/lib.rs: reset_timer", "tee/src/lib.rs: submit_metrics_report, set_*", "bridge/src/lib.rs: set_*", "nft/src/lib.rs: set_royalty, delegate_nft"]}
{"id": "C125", "title": "What is stored grows only with what calls bring", "statement": "The size of the stored state (entries of every map, elements of every list, bytes of every byte string) grows by at most what a call brings: the byte strings and lists among its arguments and a small fixed number of entries, at most four. A rejected call adds nothing, and nothing that is not a call adds anything: blocks can come and go, auctions, rents, transmissions and eras end, fees and rewards are paid, and the stored state never grows without somebody paying for a call. After any history the state is at most the one of the beginning plus the sum of what its calls brought.", "quantifier": "every reachable state, every operation (calls of any origin, mandates of any depth, hooks, eras, fees) and every history of any length", "why_tests_cant": "State growth is a claim about all histories: a hook or call that moves an entry from one table to another while leaving the old one, or adds a claim per bid without freeing the bid, shows only in the sum over all tables. Tests look at the tables they expect to change.", "anchors": ["nft/src/lib.rs", "marketplace/src/lib.rs", "auction/src/lib.rs: on_initialize, add_bid", "rent/src/lib.rs: on_initialize, create_contract, make_rent_offer", "transmission-protocols/src/lib.rs: on_initialize, add_consent", "tee/src/lib.rs: on_initialize, assign_enclave, force_update_enclave", "bridge/src/lib.rs: vote_for_proposal"]}
{"id": "C126", "title": "Combined calls do what their parts do", "statement": "A call that is a short form of others is accepted exactly if these are, made one after the other as a unit, and leads to the same state apart from the record of events: creating a secret NFT or a capsule is creating an NFT and adding the secret or converting it (same fees in total), creating in a collection is creating and adding, creating a limited collection is creating and limiting, handing an NFT or marketplace to a third account by way of a second one is handing it over directly, two changes of a marketplace's configuration are one, raising a bid is withdrawing and bidding anew while withdrawing is allowed, a forced removal of an operator is a request to leave that is approved, a forced change of an enclave's data is a requested one that is approved.", "quantifier": "every reachable state, every origin and all arguments of the calls", "why_tests_cant": "A test compares the two ways for one choice of arguments in one state; the equality is about all arguments, all states in which either way is refused, and every part of the state.", "anchors": ["nft/src/lib.rs: create_secret_nft, create_capsule, create_nft, add_nft_to_collection, create_collection, limit_collection, transfer_nft, delegate_nft", "marketplace/src/lib.rs: set_marketplace_owner, set_marketplace_configuration", "auction/src/lib.rs: add_bid, remove_bid", "tee/src/lib.rs: force_remove_enclave, force_update_enclave, unregister_enclave, approve_enclave_unregistration, update_enclave, approve_update_enclave", "mandate/src/lib.rs: mandate"]}
{"id": "C127", "title": "The order of votes does not matter", "statement": "For what several accounts decide together - relayers about an incoming transfer, listed accounts about the transmission of an NFT, the enclaves of a cluster about the shards of a secret or capsule - neither the order in which they take part, nor repeated attempts, nor attempts by accounts without a say matter: if the same accounts take part, balances, owners, flags, schedules and everything else end up the same, and the record shows as many participants, the same expiry and the same approval.", "quantifier": "every state, every ballot of the four kinds, any two finite sequences of accounts with the same members", "why_tests_cant": "A test fixes one order of a few voters; the statement is about all orders, repetitions and uninvited attempts of any number of accounts in any state of the ballot.", "anchors": ["bridge/src/lib.rs: vote_for_proposal, commit_vote", "transmission-protocols/src/lib.rs: add_consent", "nft/src/lib.rs: add_secret_shard, add_capsule_shard"]}
{"id": "C128", "title": "No number is special", "statement": "NFT, collection, marketplace, cluster, slot and chain numbers are mere names. If things that exist get other numbers, everywhere and consistently, every call does the same up to the numbers, fails with the same error if it fails, and whole histories with block hooks, fees and payouts correspond. Only the numbers still to be given away keep their place. So two NFTs, collections, marketplaces or clusters can exchange their numbers: nothing depends on which came first, and no number (such as 0) has a meaning of its own.", "quantifier": "every configuration, every state, every injective renumbering that keeps numbers not yet given away, every call and origin, every finite sequence of operations", "why_tests_cant": "A test uses a few fixed small numbers; a special case for one number, or a comparison of two numbers, goes unnoticed for all others.", "anchors": ["nft/src/lib.rs: create_nft, get_next_nft_id", "marketplace/src/lib.rs: create_marketplace", "auction/src/types.rs: DeadlineList", "rent/src/types.rs: Queue", "transmission-protocols/src/types.rs: Queue", "tee/src/lib.rs: create_cluster, assign_enclave", "bridge/src/lib.rs: vote_for_proposal, deposit"]}
{"id": "C129", "title": "The work at the start of a block ends, and the lists it works on keep order", "statement": "Whatever is stored, even what no call can bring about, the loops the auction, rent and transmission pallets run at the start of a block end, in exactly one state, without a panic, although the rent pallet puts entries back on the very schedule it is reading. A schedule hands out its front entry when that is due and nothing else; a new entry goes behind those due no later and before the first due later; a full schedule refuses and changes nothing; reading, removing or moving an NFT's entry touches its first entry only. A new bid goes to the end of the bids, a full list loses its oldest bid only, the last bid is the highest taken. Setting one flag of an NFT changes no other, and a check for flags passes just if none of them is set.", "quantifier": "every configuration, every state (reachable or not), every schedule, list of bids, limit, block number and set of flags", "why_tests_cant": "Whether a loop that refills its own list ends depends on every stored schedule and limit; positions in vectors go wrong at ends, ties and full lists of every size.", "anchors": ["auction/src/lib.rs: on_initialize", "rent/src/lib.rs: on_initialize", "transmission-protocols/src/lib.rs: on_initialize", "auction/src/types.rs: DeadlineList, BidderList", "rent/src/types.rs: Queue", "transmission-protocols/src/types.rs: Queue", "primitives/src/nfts.rs: set_state, not_in_state"]}
{"id": "C130", "title": "What a pallet offers to other pallets keeps the rules of its calls", "statement": "Through the interface between pallets, creating an NFT for someone does what their own call does, but for the fee: a new number, theirs, free of every flag but the bond asked for, a member of the collection named just as by the call. Reading an NFT or a marketplace gives what is stored; writing one changes no other; changing an NFT by a function of one's own is all or nothing; a missing NFT is an error, not a new NFT; a registered enclave is recognised at once as its operator's and others are recognised as before.", "quantifier": "every reachable state for creation, every state for the rest; every account, NFT, collection, marketplace, cluster, and every function applied to an NFT", "why_tests_cant": "These functions bypass the checks of the calls; what else they may leave inconsistent depends on every state and caller.", "anchors": ["nft/src/lib.rs: impl NFTExt (create_nft, set_nft, set_nft_state, mutate_nft, get_nft, exists)", "marketplace/src/lib.rs: impl MarketplaceExt", "tee/src/lib.rs: impl TEEExt (ensure_enclave, register_and_assign_enclave)"]}
{"id": "C131", "title": "No era is special", "statement": "If every era in a state is larger by the same number, that of the active era, of each report, claim and assignment, and every era among the arguments of a call, then the call does the same thing, only so many eras later, and fails with the same error if it fails. The same holds for the block hooks, fees, payouts, changes of era and whole histories: everybody ends with the same tokens, stakes, NFTs, reports and rewards.", "quantifier": "every configuration, state, call, origin, history, and number of eras by which everything is moved", "why_tests_cant": "A test runs at the eras it chooses; a computation with eras that saturates or compares with a fixed era shows at one of them.", "anchors": ["tee/src/lib.rs: claim_rewards, submit_metrics_server_report, assign_enclave, update_operator_assigned_era, on_initialize"]}
{"id": "C132", "title": "The order of bids does not decide an auction", "statement": "Accounts bid in a running auction, one after the other in any order; a bid not above the highest is refused. The highest of them, or the first of the highest if there are several, leads afterwards, whatever else is bid before or after it, provided it is above the start price and all bids that stood, and its bidder could pay it at the start. If there is one highest bid, all orders have the same leader, the same price and, unless the auction is overdue, the same end. Nobody gains or loses by the order: for every account what it holds, has bid and can claim back adds up to the same.", "quantifier": "every reachable state, auction, list of bids of any length, and every order of it", "why_tests_cant": "The number of orders grows with the factorial of the number of bids; full lists of bids, refused bids and extensions interact differently in each.", "anchors": ["auction/src/lib.rs: add_bid", "auction/src/types.rs: BidderList::insert_new_bid, AuctionData::extend_if_necessary"]}
{"id": "C133", "title": "The order of metrics reports does not matter", "statement": "Metrics servers report on operators one after the other, each submitter naming an operator at most once. Afterwards exactly the reports of registered servers on assigned operators stand, in place of earlier ones by the same submitters; two orders of the same reports leave the same state but for events and the order on record, and every operator has the same reward for every era.", "quantifier": "every reachable state, list of reports of any length by any accounts on any operators, and every order of it; every era and operator for the rewards", "why_tests_cant": "The number of orders grows with the factorial of the number of reports; replaced, refused and surplus reports interact differently in each.", "anchors": ["tee/src/lib.rs: submit_metrics_server_report, claim_rewards, calculate_highest_params"]}
{"id": "C134", "title": "The damage of failed auction payouts is bounded", "statement": "Whatever fails in a history, the bids and refunds that the auction pallet owes exceed what its account holds by at most the highest bids of the auctions whose payout failed in a block hook, and less than one existential deposit for each time the account was emptied while something was owed. In particular only auctions that left the schedule unpaid, and accounts emptied below the existential deposit, can cost other bidders money; no call alone can.", "quantifier": "every genesis state and every history of calls and hooks, without any condition on what succeeds", "why_tests_cant": "The bound adds up over histories of any length, in which payouts may fail at each of three transfers, interleaved with bids, refunds and settlements of other auctions.", "anchors": ["auction/src/lib.rs: on_initialize, pay_for_nft, claim, remove_bid, end_auction"]}
{"id": "C135", "title": "The order of collecting does not matter", "statement": "Accounts claim their refunds from the auction pallet in any order, some perhaps several times or without having one. While the pallet's account covers what it owes, everybody who claims receives exactly the own refund, once, nobody else anything, the account falls by exactly the sum, and nothing else changes. Operators claim rewards of any eras they are entitled to, in any order; if the tee account holds their sum and an existential deposit, each receives exactly the own reward. So all orders leave every account with the same.", "quantifier": "every reachable state, every list of claims of any length, and every order of it", "why_tests_cant": "The number of orders grows with the factorial of the number of claims, and the shared account may be closed on the way when it falls below the existential deposit.", "anchors": ["auction/src/lib.rs: claim", "tee/src/lib.rs: claim_rewards"]}
{"id": "C136", "title": "An auction whose payout failed can be rescued, given a grace period", "statement": "When the block hook fails to pay out an auction, the auction stays behind without a scheduled end. Provided the runtime has a grace period, it can still be concluded: whoever has no bid in it and can pay an existential deposit and a bid above all others, whose shares the payees can take, obtains the NFT by giving the pallet's account the deposit, bidding, and having the creator end the auction; nobody else's bids and refunds change. Without a grace period such an auction, if it has no direct price, is never concluded whatever anybody does, and the NFT stays locked.", "quantifier": "every reachable state, every auction without a scheduled end, every account and bid; for the second part every continuation of any length", "why_tests_cant": "States with a failed payout arise from long and unusual histories, with the pallet's account possibly short; that nothing ever frees an NFT is a statement about all continuations.", "anchors": ["auction/src/lib.rs: add_bid, end_auction, on_initialize", "auction/src/types.rs: extend_if_necessary"]}
{"id": "C137", "title": "Unannounced payments are bounded", "statement": "The auction pallet's block hook can pay out without an event when a payout is broken off half way (C90). Along every history, whatever fails in it, balances differ from what the events say only by payments that come from the auction pallet's account and that together are at most the highest bids of the auctions whose payout failed. So no account ever has less than the events say, and what goes to the collector of fees is announced in full.", "quantifier": "every reachable state and every history of any length, without plain balance transfers, bridge calls, reward claims, transaction fees and era payouts, which other events report", "why_tests_cant": "The payments in question arise only in failing payouts, whose number and sizes depend on the whole history.", "anchors": ["auction/src/lib.rs: on_initialize, pay_for_nft"]}
{"id": "C138", "title": "The order of rental offers does not matter while there is room", "statement": "If each of several accounts could make an offer to rent an NFT now, and there is room for all of them, then all offers are accepted in whatever order they arrive, they are listed in that order, and nothing else changes. Whatever the order was, the same offers can be accepted afterwards with the same outcome: the chain is then the same but for its event log. Only when the last places are contended does the order decide who gets one.", "quantifier": "every state, every number of offering accounts, every two orders of their offers, every account accepting and every account accepted", "why_tests_cant": "The number of orders grows with the factorial of the number of offers, in every state of the chain.", "anchors": ["rent/src/lib.rs: make_rent_offer, accept_rent_offer, take_rent_and_cancellation_fee"]}
{"id": "C139", "title": "What the pallets rely on in the configuration without checking it", "statement": "A runtime chooses the pallets' limits, durations and accounts, and the pallets check none of them. A shortest auction above the longest or a limit of zero switches a function off for ever: no auctions, no bids, no rentals, no timed transmissions, no bridge votes. Two pallets with one account break the guarantee that deposits or bids are covered, for each of the five pairs in which one holds bids or deposits. A limit of zero bids makes a bid panic instead of failing.", "quantifier": "every configuration with such a value and every state it can reach; for the shared accounts and the panic, a concrete history for each", "why_tests_cant": "Tests use one configuration with different accounts and positive limits, so what the guarantees rest on does not show; that a function stays off must hold for every history.", "anchors": ["auction/src/lib.rs: Config, create_auction, add_bid", "auction/src/types.rs: insert_new_bid", "rent/src/lib.rs: Config", "transmission-protocols/src/lib.rs: Config", "tee/src/lib.rs: Config", "staking-rewards/src/lib.rs: Config", "bridge/src/lib.rs: Config"]}
{"id": "C140", "title": "The order of mints decides the numbers and nothing else", "statement": "If everybody can pay for all the NFTs they want to mint, then all the mints succeed, in whatever order they get in. The NFTs get the next free numbers in that order, everybody pays the mint fee once for each own NFT, the collector of fees receives the sum, and nothing else changes. Two orders lead to the same balances and to the same new NFTs, except for which number belongs to which.", "quantifier": "every state, every number of mints by any accounts (each any number of times), all contents, royalties and soulbound flags, and every two orders; mints outside collections", "why_tests_cant": "The number of orders grows with the factorial of the number of mints, in every state of the chain.", "anchors": ["nft/src/lib.rs: create_nft, create_nft_helper, get_next_nft_id"]}
{"id": "C141", "title": "When the time has come, the schedule does what the call would do", "statement": "If an auction that its creator may end is the only one due, then what happens at the start of the block is exactly what the creator's call would do: the same payments, owner, refunds, records and announcement. If an NFT offered for rent that its renter may take back is the only contract due, then what happens at the start of the block is what the renter's call would do, except that applications for the contract stay behind; without applications the two leave the same state.", "quantifier": "every reachable state, every auction and every contract, all bids, fees, deposits and limits of the configuration", "why_tests_cant": "Two separate pieces of code have to agree in every state that can arise, in all balances and records, not only in those a test compares.", "anchors": ["auction/src/lib.rs: on_initialize, end_auction", "rent/src/lib.rs: on_initialize, cancel_contract, handle_finished_or_unused_contract"]}
{"id": "C142", "title": "Percentages are exact to half a unit", "statement": "In a sale the marketplace's percentage and the creator's royalty are the exact parts of the amounts they are taken from, to half a unit of the token; the seller gets the rest, which is exact to one unit. With the same commission and royalty, a higher price never gives the marketplace, the creator or the seller less. Whoever breaks off a rental keeps of a flexible deposit the part of the duration that is over, at most half a unit too much, and at most one percent and half a unit too little.", "quantifier": "every purchase, every auction ended or bought out, and every revocation that is accepted, in every state, with all prices, percentages and royalties, and all parties different accounts", "why_tests_cant": "Rounding depends on every pair of price and percentage; tests see a few of them, and an error of one unit at some remainder goes unnoticed.", "anchors": ["marketplace/src/lib.rs: buy_nft", "auction/src/lib.rs: pay_for_nft", "rent/src/types.rs: percentage_of_completion", "rent/src/lib.rs: return_flexible_fee"]}
{"id": "C143", "title": "A reward is the operator's fair share", "statement": "A claim that is accepted announces and pays the operator the pool divided by the number of operators, times the operator's score: full if nobody reported on it for the era, otherwise the weighted sum of the best values reported, at most full. The amount is at most one unit above that, and at most one unit and a billionth of the pool below.", "quantifier": "every accepted claim, in every state: all pools, numbers of operators, reports, weights and eras", "why_tests_cant": "Two roundings to billionths and two to units follow each other; how they add up depends on all the numbers involved.", "anchors": ["tee/src/lib.rs: claim_rewards, calculate_highest_params, calculate_weighted_sum"]}
{"id": "C144", "title": "The number of actions per block decides only when things happen", "statement": "Letting a block's schedule work in two portions, with limits i and j, has exactly the effect of one portion with limit i + j: the same settlements, payments, records and events in the same order. So the configured number of actions per block delays what is due but never changes it.", "quantifier": "all positive limits i and j and any number of portions; for auctions every state, for transmissions every reachable state", "why_tests_cant": "It compares the same chain under different configurations, for every limit and every content of the schedules; a test fixes one limit.", "anchors": ["auction/src/lib.rs: on_initialize", "transmission-protocols/src/lib.rs: on_initialize", "rent/src/lib.rs: on_initialize"]}
{"id": "C145", "title": "All claims of an era together pay out its pool", "statement": "If all operators claim the reward of an era, in any order, and the reward account holds the pool, one unit for each operator and the existential deposit, then all are paid, and together they get the pool times their average score: at most one unit per operator more, and at most one unit and a billionth of the pool per operator less. Without reports this is the whole pool up to that rounding.", "quantifier": "every reachable state, number and order of operators, pool, weights and reports", "why_tests_cant": "Rounding errors of every single reward add up over any number of operators; tests have two or three.", "anchors": ["tee/src/lib.rs: claim_rewards, calculate_highest_params, calculate_weighted_sum"]}
{"id": "C146", "title": "The numbers of auctions and transmissions per block may be changed by upgrades", "statement": "A chain whose limits are raised, and whose numbers of auctions and transmissions dealt with per block are changed up or down, in any number of runtime upgrades at any time, is only ever in states that a chain with the latest limits reaches which deals with one auction and one transmission at a time and is never upgraded. So everything proved of reachable states also holds after such upgrades. (The number of rentals dealt with per block is left out: C144 shows that it can change what happens.)", "quantifier": "every configuration, every history of operations and upgrades, every number per block above zero", "why_tests_cant": "Tests fix the runtime constants; here they change in the middle of any history.", "anchors": ["auction/src/lib.rs: on_initialize, ActionsInBlockLimit", "transmission-protocols/src/lib.rs: on_initialize, ActionsInBlockLimit"]}
{"id": "C147", "title": "Putting off the end of an auction costs tokens", "statement": "The end of an auction is put off only by ever higher bids: along every history in which the auction goes on, its end moves by at most one grace period for each unit by which the price has risen above the start price, and, once it has been extended, its price never falls and every further grace period costs at least one unit more. (Fails unless the configured ending period, in which bids cannot be withdrawn, is at least the grace period, which the pallet does not check: otherwise whoever can pay one bid can put off the end for ever by bidding and withdrawing, gets all tokens back, and there is still no bid.)", "quantifier": "every configuration, reachable state, auction and history of any length in which the auction goes on", "why_tests_cant": "It is about arbitrarily long sequences of bids and withdrawals; the mock sets the ending period to twice the grace period, so tests do not meet the failing case.", "anchors": ["auction/src/lib.rs: add_bid, remove_bid, AuctionGracePeriod, AuctionEndingPeriod", "auction/src/types.rs: extend_if_necessary"]}
{"id": "C148", "title": "An auction is not over before the announced end", "statement": "A running auction stays open at least until the end block announced when it was created, unless somebody buys the NFT for the announced buy-it-now price. (Fails: a bid less than a grace period before the end makes the auction extended, and its creator can end an extended auction at once, also before the announced end; anybody can place that bid, also a second account of the creator. What holds: this is the only other way, and it happens less than a grace period before the announced end.)", "quantifier": "every reachable state, running auction and history of any length until the auction is over", "why_tests_cant": "It needs every way in which an auction can be over after every sequence of bids and withdrawals.", "anchors": ["auction/src/lib.rs: end_auction, add_bid, buy_it_now, cancel_auction, on_initialize", "auction/src/types.rs: extend_if_necessary"]}
{"id": "C149", "title": "A subscription that the renter cannot revoke lasts as long as the rentee pays", "statement": "A running subscription that the renter may not revoke goes on until its maximal duration is over, as long as the rentee does not revoke it and can pay what is due whenever a period is over. (Fails in two ways. If the terms can be changed, the renter proposes new terms and the rental is over at the end of the period unless the rentee accepts them. If the fee is below the existential deposit, the renter empties their own account, which makes the payment fail. What holds: without these two, no operation of anybody ends the rental.)", "quantifier": "every reachable state, running subscription, operation and history of any length, including other subscriptions of the same rentee that fall due in the same block", "why_tests_cant": "It needs every operation of every account, and every order in which the hook charges any number of subscriptions of one rentee.", "anchors": ["rent/src/lib.rs: on_initialize, handle_subscription_contract, revoke_contract, change_subscription_terms"]}
{"id": "C150", "title": "A standing bid bounds the price from below", "statement": "If an account bids v in an auction and does not withdraw, the NFT is sold, for at least v. (Fails: an auction keeps only a limited number of bids. Higher bids displace the bid, and if they are then withdrawn, the NFT is sold for less than v, although its bidder never withdrew. What holds: this takes at least as many withdrawals by others as an auction has room for bids; with fewer the auction ends with a sale for at least v.)", "quantifier": "every reachable state, auction with a bid, and history of any length until the auction is over", "why_tests_cant": "It needs every interleaving of any number of bids, raised bids and withdrawals by any number of accounts.", "anchors": ["auction/src/lib.rs: add_bid, remove_bid, end_auction, buy_it_now, on_initialize", "auction/src/types.rs: insert_new_bid, remove_bid"]}
{"id": "C151", "title": "An irrevocable transmission arrives in bounded time", "statement": "An irrevocable transmission for a block reaches its recipient within a bounded number of blocks after this block, whatever its owner or anybody else does or tries. (Fails for transmissions that can be reset: although they cannot be removed, the owner can put them off for ever, a few blocks at a time. What holds: a transmission for a fixed block arrives during the first (SimultaneousTransmissionLimit - 1) / max(1, ActionsInBlockLimit) + 1 runs of the block hook once the block has come.)", "quantifier": "every reachable state, transmission for a block, and history of any length, including attempts of the owner to remove or reset it", "why_tests_cant": "It needs every history of every account and every length of the schedule.", "anchors": ["transmission-protocols/src/lib.rs: on_initialize, remove_transmission_protocol, reset_timer", "transmission-protocols/src/types.rs: can_reset_timer, is_cancellable"]}
{"id": "C152", "title": "It does not matter when a reward is claimed", "statement": "While the reward of an era can be claimed, an operator gets the same amount whenever it claims. (Fails: the pool is divided by the number of operators at the time of the claim, not in the era. Operators assigned later make the reward smaller, operators removed later make it larger, and an operator that leaves gets nothing for eras it has worked in. What holds: with the same number of operators, pool and weights the amount is the same whatever happens between, and the reports that count never change meanwhile.)", "quantifier": "every state, era and operator, and history of any length between two moments at which the operator could claim", "why_tests_cant": "It needs every history between the two moments, including further reports, other claims and any number of new eras.", "anchors": ["tee/src/lib.rs: claim_rewards, submit_metrics_server_report, on_initialize, assign_enclave, force_remove_enclave, approve_enclave_unregistration"]}
{"id": "C153", "title": "One relayer alone cannot stop a transfer", "statement": "A single relayer cannot prevent a transfer that the others agree on: once as many different relayers as the threshold demands have voted for it, the recipient is paid. (Fails in every state where more than one vote is needed: the first vote starts the voting period, so one relayer who votes before the others are ready lets the transfer expire, and an expired transfer can never be approved. What holds: if that many different relayers vote before the deadline, the transfer is approved whatever else happens before, between and after their votes.)", "quantifier": "every reachable state, transfer, set of relayers and history of any length containing their votes in any order; for the failure every reachable state, relayer, transfer and later history", "why_tests_cant": "It needs every interleaving of the votes with all other operations and, for the failure, every later history.", "anchors": ["bridge/src/lib.rs: vote_for_proposal, set_relayers, set_threshold", "bridge/src/types.rs: Proposal"]}
{"id": "C154", "title": "Whoever is no relayer any more has no say", "statement": "When governance removes a relayer, no transfer is approved on the strength of its votes any more. (Fails: votes cast before the removal still count, so a removed relayer and one remaining relayer can together approve a transfer that needs two relayers. What holds: a removed account adds no vote to any transfer, and once it has not been a relayer for a voting period no approval counts a vote of it.)", "quantifier": "every reachable state, account that is no relayer in it, transfer, and history of any length during which it stays so", "why_tests_cant": "It needs every later history, with any number of votes on any transfers and any further changes of the relayers.", "anchors": ["bridge/src/lib.rs: set_relayers, vote_for_proposal", "bridge/src/types.rs: Proposal"]}
{"id": "C155", "title": "A synced secret is held by enough enclaves", "statement": "When a secret or capsule stops waiting, as many different operators of one cluster as shares are needed have stored a share and are in the cluster, so the secret can be put together again. (Fails: the share of an operator who leaves before the others have reported still counts, so a secret that needs two holders can be declared synced with one. What holds: if nobody leaves a cluster between the first report and the last, all recorded shares are held by current members, and so are those of a synced secret.)", "quantifier": "every reachable state in which no share is recorded, NFT, secret or capsule, and history of any length, ending with the call that completes the sync", "why_tests_cant": "It needs every interleaving of reports with the management of enclaves and clusters.", "anchors": ["nft/src/lib.rs: add_secret_shard, add_capsule_shard", "tee/src/lib.rs: ensure_enclave, force_remove_enclave, approve_enclave_unregistration"]}
{"id": "C156", "title": "A network of bridged chains creates no tokens", "statement": "Take any number of chains that run these pallets and are joined by bridges. If on every chain fewer relayers than votes are needed ever vote for something that has not been deposited, then every transfer approved on one chain answers a deposit of exactly this amount, recipient and nonce on another, all transfers paid out are together at most the deposits handed in, and all tokens on all chains together never exceed what there was at the start, apart from staking rewards minted by pallets outside.", "quantifier": "every finite network, every configuration and genesis of its chains, every interleaving of operations on all chains of any length, every set of dishonest relayers below the thresholds", "why_tests_cant": "It is about all interleavings on several chains at once, with arbitrary behaviour of dishonest relayers and of everybody else.", "anchors": ["bridge/src/lib.rs: vote_for_proposal, deposit, set_threshold, set_relayers", "bridge/src/types.rs: Proposal"]}
{"id": "C157", "title": "The bridge can always be brought back to work", "statement": "Whatever happened to the bridge, root or the committee needs three calls (whitelist the chain, name a relayer, demand one vote), and then one vote of this relayer approves any transfer from another chain that nobody has voted for before and pays exactly its amount to its recipient, provided the amount fits the issuance and can open or top up the account. Conversely, while governance demands more votes than a transfer has room for, no transfer is approved at all, whoever votes.", "quantifier": "every state of the chain, every other chain and transfer without votes, every account named as relayer; for the converse every reachable state and every sequence of operations during which the threshold stays above the limit on votes", "why_tests_cant": "Recovery has to work from every state an arbitrary history can leave behind, and a halt has to last through every continuation.", "anchors": ["bridge/src/lib.rs: add_chain, set_relayers, set_threshold, vote_for_proposal", "bridge/src/types.rs: Proposal::try_to_complete"]}
{"id": "C158", "title": "A deposit arrives on the other chain", "statement": "Take any number of bridged chains that run these pallets. When a deposit to another chain is accepted, nobody votes there for what has not been deposited, and as many relayers of that chain as votes are needed vote for the transfer within its voting period (staying relayers, under an unchanged threshold that fits the limit), then the deposit is announced with the next nonce and the transfer with this nonce, recipient and amount is approved on the other chain. This holds as long as the counter of deposits has not reached the largest 64-bit number.", "quantifier": "every network, every genesis and configuration of its chains, every history before the deposit, every interleaving of operations on all chains after it that contains the votes, every set of voters, order of votes and amount", "why_tests_cant": "It is about every interleaving of several chains and about every past in which the transfer may already have been voted for.", "anchors": ["bridge/src/lib.rs: deposit, vote_for_proposal", "bridge/src/types.rs: Proposal"]}
{"id": "C159", "title": "A network of bridged chains loses no tokens", "statement": "Take any number of chains that run these pallets and are joined by bridges, with fewer dishonest relayers than votes needed on each, whose tokens together fit 128 bits. Then all tokens there were at the start are still there, or have been deposited and not yet been released on another chain, or have been paid for transactions, or were taken from the reward pots for staking; apart from at most one existential deposit per operation, for emptied accounts and payments too small to open one.", "quantifier": "every finite network, every configuration and genesis of its chains, every interleaving of operations on all chains of any length, every set of dishonest relayers below the thresholds", "why_tests_cant": "It is a balance over all interleavings on several chains at once, with arbitrary behaviour of dishonest relayers and of everybody else.", "anchors": ["bridge/src/lib.rs: deposit, vote_for_proposal", "staking-rewards/src/lib.rs: era_payout, on_unbalanceds"]}
{"id": "C160", "title": "Whoever does nothing loses nothing", "statement": "An account that rents nothing and has no standing rental offer, and from now on signs nothing and pays no transaction fee, never has fewer tokens than now, and keeps every NFT that it has now and that is not listed, auctioned, rented out, under a transmission protocol or delegated; these NFTs also stay out of any such use and keep their content. Its marketplaces stay as they are and its collections stay its own. This holds whatever all other accounts, root, the committee and the scheduled work do.", "quantifier": "every reachable state, every account other than the pallets' own, every NFT, every sequence of operations of any length which the account neither signs nor pays the fee of", "why_tests_cant": "It is about every sequence of acts of everybody else.", "anchors": ["nft/src/lib.rs: transfer_nft, burn_nft, delegate_nft", "marketplace/src/lib.rs: buy_nft", "auction/src/lib.rs", "rent/src/lib.rs: accept_rent_offer, on_initialize", "transmission-protocols/src/lib.rs"]}
{"id": "C161", "title": "An operator keeps its seat until it asks or is forced", "statement": "An enclave operator that is assigned and has no request waiting keeps its enclave, the enclave's address, its cluster, its slot and the era from which it is paid, as long as it does not itself ask to unregister or to update its enclave and governance does not use one of the three calls that dispose of this very operator unasked (force removal, force update, setting its assigned era). Whatever else everybody does, including all other orders of governance, other operators entering, leaving or changing, and changes to the cluster, the seat stays.", "quantifier": "every reachable state, every assigned operator without waiting request, every sequence of operations of any length in which the operator does not ask and is not forced", "why_tests_cant": "It is about every sequence of acts of governance and all other operators on shared tables and lists.", "anchors": ["tee/src/lib.rs: assign_enclave, approve_enclave_unregistration, approve_update_enclave, remove_cluster, force_remove_enclave, force_update_enclave, update_operator_assigned_era, unregister_enclave, update_enclave"]}
{"id": "C162", "title": "Whoever leaves NFTs for sale finds the NFTs or the money", "statement": "For an account that rents nothing and has no standing rental offer, and from now on signs nothing and pays no transaction fee, the tokens it has together with what is due to it for the NFTs it has for sale (price less the commission agreed when listing and the creator's royalty on the rest) never get less, for any set of NFTs and whatever all others do. Each single NFT it has for sale is still its own and for sale on the same terms, or the account has got what was due.", "quantifier": "every reachable state, every account other than the pallets' own, every finite set of NFTs, every sequence of operations of any length which the account neither signs nor pays the fee of", "why_tests_cant": "It is about every sequence of acts of everybody else, with several sales, changed commissions and failed purchases in any order.", "anchors": ["marketplace/src/lib.rs: list_nft, unlist_nft, buy_nft, set_marketplace_configuration", "nft/src/lib.rs: set_royalty"]}
{"id": "C163", "title": "Whoever leaves an NFT up for auction finds the auction, the NFT or the money", "statement": "For an account that rents nothing and has no standing rental offer, has an NFT up for auction, and from now on signs nothing and pays no transaction fee, at any later time one of three holds whatever all others do: the auction is still there on the same terms (creator, marketplace, start, start price, direct price, commission) and the NFT is still the account's own with the same royalty; or the NFT is back with the account and in no use; or the account has got, on top of all it had, a price above the start price less the commission agreed when the auction was created and the creator's royalty on the rest.", "quantifier": "every reachable state, every account other than the pallets' own with a running auction, every sequence of operations of any length which the account neither signs nor pays the fee of, including settlements with failing payouts", "why_tests_cant": "It is about every sequence of bids, withdrawals, purchases and settlements by others, with payouts of other auctions failing half way.", "anchors": ["auction/src/lib.rs: add_bid, remove_bid, buy_it_now, on_initialize, complete_auction, pay_for_nft", "marketplace/src/lib.rs: set_marketplace_configuration"]}
{"id": "C164", "title": "Whoever leaves an NFT up for rent keeps it and gets the rent", "statement": "For an account that itself rents nothing and has no standing rental offer, has an NFT up for rent, and from now on signs nothing and pays no transaction fee, at any later time the NFT is still its own whatever all others do, and one of three holds: it is still to let on the same terms (length, acceptance, revocability, rent, both cancellation fees, creation block); or the contract is over and the NFT is in no use; or another account rents it on these terms and the account has got, on top of all it had, the first rent if that is in tokens. A contract already running when the account goes away stays with the same rentee on its terms until it ends, and then the NFT is in no use.", "quantifier": "every reachable state, every account other than the pallets' own with an available or running rent contract, every sequence of operations of any length which the account neither signs nor pays the fee of", "why_tests_cant": "It is about every sequence of rentals, offers, revocations, renewals and expiries by others, with any number of other contracts and any fees.", "anchors": ["rent/src/lib.rs: rent, accept_rent_offer, revoke_contract, accept_subscription_terms, on_initialize, handle_finished_or_unused_contract, take_rent_and_cancellation_fee", "rent/src/types.rs: RentContractData"]}
{"id": "C165", "title": "What an absent owner has lent or set to be transmitted stays as it was left", "statement": "For an account that signs nothing any more: an NFT it has set to be transmitted keeps exactly that transmission (recipient, protocol with its block, consent list and threshold, cancellation) and stays its own, up to the moment it is delivered to the recipient named, which is not before the block named and not without the wanted number of consents by distinct accounts that were asked. If the account also rents nothing, has no standing rental offer and pays no transaction fee, an NFT it has lent stays its own, lent to the same account, and comes into no other use.", "quantifier": "every reachable state, every account with a transmission pending or an NFT lent, every protocol, every sequence of operations of any length which the account neither signs nor pays the fee of", "why_tests_cant": "It is about every sequence of calls by all other accounts, consents in any order, and any number of blocks.", "anchors": ["transmission-protocols/src/lib.rs: add_consent, reset_timer, remove_transmission_protocol, on_initialize", "nft/src/lib.rs: delegate_nft"]}
{"id": "C166", "title": "Whoever rents for a fixed time and goes away keeps the rental or has the deposit back", "statement": "For an account that rents NFTs for fixed times only, has no standing rental offer, and from now on signs nothing and pays no transaction fee: its tokens never get fewer, whatever all others do, and each of its rentals is still there exactly as it was or the tokens it deposited for it have come back on top of all it had; an NFT it deposited is back with it and in no use. If the renter cannot revoke, the rental is there up to its last block.", "quantifier": "every reachable state, every account other than the pallets' own with any number of fixed rentals, every sequence of operations of any length which the account neither signs nor pays the fee of", "why_tests_cant": "It is about every sequence of revocations, expiries and other calls, with any number of other contracts that end or renew in the same block.", "anchors": ["rent/src/lib.rs: revoke_contract, on_initialize, handle_finished_or_unused_contract, return_cancellation_fee, change_subscription_terms"]}
{"id": "C167", "title": "What a subscription costs a rentee that goes away is bounded", "statement": "An account that has any number of subscriptions and of rentals for fixed times, and no standing rental offer, and from now on signs nothing and pays no transaction fee, loses at most, for each subscription, the agreed rent for each payment that has fallen due: one per period, the first at the block planned now, none at or after the end of the maximal duration. No call of anybody else, in particular no change of terms by the renter, makes it pay more or earlier.", "quantifier": "every reachable state, every account other than the pallets' own, all its subscriptions, every sequence of operations of any length which the account neither signs nor pays the fee of", "why_tests_cant": "It is about every interleaving of blocks, late hooks, changes of terms, revocations and other contracts that end or renew in the same block, with no bound on the number of periods.", "anchors": ["rent/src/lib.rs: on_initialize, change_subscription_terms, revoke_contract, rent", "rent/src/types.rs: SubscriptionDetails, RentContractData"]}

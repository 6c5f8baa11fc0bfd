# Formal model of ternoa-pallets in Lean 4

## Approach

One Lean model of the chain as a state machine.  `World` is the record of all
pallets' storages plus balances, the block number and the active era.  Every
extrinsic is a total function `World → args → Except Err World`; `Err` rolls
everything back, as Substrate's transactional extrinsics do.  Block hooks are
*not* transactional in Substrate and are modelled as `World → World`, with the
helpers they share written so that partial effects of a failing helper persist.
`step : World → Op → World` interprets a sum type of all operations.  `Reach`
is the set of worlds reachable from an empty chain by any finite list of
operations.  Each pallet's hook is its own operation, so the real order of
hooks, and every other order, is covered.

Properties are theorems over all worlds, or all reachable worlds, proved by
induction on executions.  Where the code does not have a property, the
negation is proved by a concrete reachable witness, and the strongest part
that does hold is kept as a `_partial` theorem.

## Layout

* `Verif/Prelude` – finite maps, the error monad, arithmetic (Permill).
* `Verif/Model` – the model, each definition citing the lines it models.
* `Verif/Proofs` – helper lemmas and invariants.
* `Verif/Props` – the property theorems, with non-vacuity examples.
* `Verif/Conform` – the project's own unit tests, replayed on the model.

## Trusted base

**Kernel and axioms.**  The proofs are checked by Lean 4.33.0's kernel.  No
axiom is added, and there is no `sorry`, `native_decide` or `bv_decide`.
Every property theorem depends on at most the three standard axioms
`propext`, `Classical.choice` and `Quot.sound`; `AXIOMS.txt` lists, for each
theorem named in MANIFEST.json, what `#print axioms` reports.

**What is modelled.**  All storage items, all dispatchables, all four
`on_initialize` hooks and the trait implementations used between pallets:

| Code | Model |
|------|-------|
| `nft/src/lib.rs`, `primitives/src/nfts.rs` | `Model/Nft.lean`, `Model/Types.lean` |
| `marketplace/src/lib.rs`, `primitives/src/marketplace.rs` | `Model/Marketplace.lean` |
| `auction/src/lib.rs`, `auction/src/types.rs` | `Model/Auction.lean` |
| `rent/src/lib.rs`, `rent/src/types.rs` | `Model/Rent.lean` |
| `transmission-protocols/src/lib.rs`, `types.rs` | `Model/Transmission.lean` |
| `tee/src/lib.rs`, `tee/src/types.rs` | `Model/Tee.lean` |
| `bridge/src/lib.rs`, `bridge/src/types.rs`, `staking-rewards/src/lib.rs` | `Model/Bridge.lean` |
| `mandate/src/lib.rs`, and the chain as a state machine | `Model/Step.lean` |
| the same chain with the code's integers, where the above uses unbounded ones | `Model/Machine.lean` |
| events of the first five pallets, of tee, of bridge, staking-rewards and mandate | `Model/Events.lean`, `Model/TeeEvents.lean`, `Model/BrEvents.lean` |
| vectors and `while let` loops as written, where the above uses recursive functions | `Model/Code.lean` |
| functions offered to other pallets that no pallet of /repo uses | `Model/Ext.lean` |

**What is assumed of the surroundings** (Substrate polkadot-v0.9.42, whose
source is not in the sandbox):

* Extrinsics are transactional; `on_initialize` hooks are not.  The inner
  call of `mandate` has a storage layer of its own; a panic is not caught.
* `pallet_balances`: `Model/Balances.lean` models free balances, locks, the
  existential deposit, reaping with loss of dust, `withdraw`, `transfer`,
  `deposit_creating`, and saturation of the total issuance.  No reserved
  balances; consumer references only from locks.
* `set_lock` with amount zero is a no-op.  All pallets see the same
  `ExistentialDeposit`.
* Fees handed to a `FeesCollector` are kept by it (`collected`).
* Nobody signs as a pallet account, pallet accounts are pairwise distinct,
  and pallets outside /repo put no lock on them (`Cfg.Ok`, `Op.Ok`).
* Root satisfies `ExternalOrigin`.  Calls of pallets outside /repo are not
  modelled, except plain balance transfers, locks and mints.
* The active era never decreases.
* The order and number of hooks per block is arbitrary in safety theorems;
  liveness theorems say how often a hook runs.
* Genesis has no NFTs, contracts etc. (the pallets have no `GenesisConfig`),
  and arbitrary balances and fees.

**Arithmetic.**  Balances and issuance are natural numbers bounded by an
invariant (`issuance ≤ 2^128 - 1`).  Plain `+` wraps modulo 2^128 (fee sums,
era payout) and 2^64 (deposit nonces), as in a release build.  The `u32` id
counters overflow explicitly into a `panic` value.  Block numbers and eras are
natural numbers, and auction claims are not bounded; `Model/Machine.lean` is the same
chain with `u32` block numbers, saturating claims and `u8` reports, and C112 shows
that both chains are the same while the block number plus the longest configured
period is below 2^32 - 1 and auctions owe at most 2^128 - 1 (which C20_fits shows
while the pot covers what it owes).  `Permill` multiplication is
modelled with its rounding.

**What is not modelled.**  Weights of calls (the sizes they depend on are, in `Model/CallSize.lean`, and those of hooks, in `Model/Weights.lean`) and amounts of
transaction fees (which calls are free is, in `Model/Fees.lean`), benchmarking code and helpers only it uses
(`create_filled_collection`, `fill_*`, `bulk_insert`), events of `pallet_balances` (the log `evs`, with
`feesTaken` and `eraPaid`, is a ghost), decode-level bounds of
call arguments, and hashing of storage keys.  The `migrations.rs` files contain
only commented-out code (as does the hook calling them, tee/src/lib.rs 252), so
there is nothing to model.

**How the model was checked against the code.**  Besides reading: every unit
test of /repo (150 in nft, 53 in marketplace, 66 in auction, 85 in rent, 58 in
transmission-protocols, 46 in tee, 28 in bridge, 2 in staking-rewards) is
replayed on the model in `Verif/Conform`, with the constants and balances of
its mock runtime.  Each test became one or more `example`s closed by `rfl`,
which name it.  The results asserted there (error, last event, storage) are
compared.  These are tests of the model, not proofs, and MANIFEST.json names
none of them.  All agree.  Known differences, all of naming: the model writes
`LiquidityRestrictions/KeepAlive` for the two errors of `pallet_balances` it
does not tell apart, and counts fees in `collected` where the mocks pay them to
an account.  Tests that write to storage directly do so here too (`poke`).

## Where the code does not have the property

Found while proving; each has a reachable counterexample proved in Lean
(theorem `Cxx_fails` or as named).

| Id | What happens |
|----|--------------|
| C20, C26 | A hook payout that fails after its first transfer (for example because the pot falls below the existential deposit and is reaped) is not rolled back: the auction stays, without deadline, and its bid is no longer covered. |
| C25 | A bid after the end block extends from the old end, not from the current block. |
| C29 | A renter can name the rented NFT itself as cancellation deposit; it is not held in escrow. |
| C32 (`C32_stuck`) | A rentee with a flexible deposit may be unable to revoke: paying the first party can reap the pot. |
| C33 | `rent_contract` names the contract by creation block only; the renter can raise the fee first. |
| C34 | Offers survive a contract that expires, and can be accepted for its successor with other terms. |
| C44 | `approve_update_enclave` does not remove the old address from `EnclaveAccountOperator`, so the old enclave still authenticates. |
| C46 | `withdraw_unbonded` is possible before root approves the unregistration: the operator stays active without stake, and cannot even be removed by force. |
| C48 | Rewards of an era exceed the pool by rounding, and because the share is computed at claim time. |
| C50 | `submit_metrics_server_report` does not compare `submitted_by` with the caller. |
| C53 | Bridge proposals are keyed by nonce, recipient and amount, so one nonce can be minted twice. |
| C54 | `set_deposit_nonce` to the largest `u64` makes the next nonce wrap. |
| C69 | A commission, royalty or remainder below the existential deposit for an account that does not exist makes every `buy_nft` fail. |
| C70 | `end_auction` fails although the pot covers all it owes, when one of the three payments leaves less than an existential deposit in the pot. After an aborted payout has emptied the pot (C20), a bid cannot be raised by less than the existential deposit (`C70_fails_bid`). |
| C72 | `add_consent` refuses the consent that reaches the threshold while other transmissions fill the schedule, so consenting can be impossible until one of them is delivered. |
| C73 | `unregister_enclave` fails while the list of pending requests is full, so an operator cannot start unbonding. |
| C73 | `refund_excess` after the staking amount was set to 0 records a stake of 0 but leaves the whole old stake locked, because setting a lock of 0 does nothing. |
| C73 | `claim_rewards` never accepts era 0, because `active - history` saturates at 0. |
| C73 | After `approve_update_enclave` the old enclave address stays taken for ever, even when the operator has left. |
| C75 | `vote_for_proposal` tries to complete a transfer only when a new vote is cast. If the threshold is lowered after all relayers have voted, the transfer stays unapproved although it has enough votes. |
| C78 | `set_capsule_offchaindata` checks that the NFT is not listed, rented, delegated or syncing, but not that it is in transmission. The owner can replace (also empty) the capsule of an NFT that is irrevocably promised to a recipient. |
| C80 | `accept_rent_offer` checks neither the acceptance kind nor the list of accounts nor that the offer is not the renter's own. With an offer left over from a lapsed contract, an account rents from itself, or an account that is not admitted becomes rentee. |
| C81 | The first share reported for an NFT binds it to the cluster of that enclave. If the cluster has fewer operators than shares are needed, or is emptied and removed, the NFT can never be synced, hence never transferred or sold, only burned. |
| C86 | `Withdrawn` events state the staking amount of the day instead of the stake that is released (tee/src/lib.rs 535, 584, 1129). |
| C89 | `RelayerVoted` and `ProposalApproved` name chain and nonce but not recipient and amount, although one nonce can have several transfers: the events do not tell which of them was voted for or minted. |
| C90 | When a payout of the auction hook aborts half-way, the part already paid reaches the marketplace owner or the creator and no event of the pallet tells so. |
| C92 | The three loops of the rent hook share one counter, but each loop acts before it looks at the counter (rent/src/lib.rs 293-345), so a block can see `ActionsInBlockLimit + 2` actions. The auction hook counts only settled auctions (auction/src/lib.rs 139-178): those whose payout aborts are unlimited, up to all scheduled ones in one block. |
| C95 | `list_nft` and `create_auction` take no limit for the listing fee or the commission, and `rent` identifies a contract only by its NFT and creation block. The marketplace owner can raise both fees right before a listing (`C95_list_fails`), and a renter can replace a contract within its creation block by a dearer one that the same `rent` call accepts (`C95_rent_fails`). |
| C96 | The auction hook counts 2 writes per auction where it changes at least 3 items, and nothing for aborted payouts; the rent hook counts 5 for ending a fixed contract with two deposits where 6 items change; the TEE hook counts no writes and drops records (auction/src/lib.rs 125-183, rent/src/lib.rs 285-347, tee/src/lib.rs 261-283). |
| C99 | `AuctionCommissionFee` is written when an auction is created and never removed, so an entry stays for every NFT that was ever auctioned, even after it is burned. Offers to rent stay after a contract expires unused, enclave addresses replaced by an approved update stay, and reports and rewards of skipped eras stay. |
| C65 | A bid cannot always be withdrawn before the ending period: after an auction payout has aborted in the hook (see C20) the pot is short, and the refund of another auction can be paid out of this bid (`C65_fails_bid`). |
| C104 | The limits on running auctions, contracts and timed transmissions, and on the offers for a contract, are shared by all accounts. Whoever fills them, at the cost of minting the NFTs, keeps everybody else out until the entries run out (`C104_fails`, `C104_shut_*`; auction/src/lib.rs 410-413, rent/src/lib.rs 355-479, transmission-protocols/src/lib.rs 381-395). |
| C109 | The order of the auction and rent hooks matters when someone paid by an auction that ends in a block has a subscription due in the same block: the proceeds pay the rent only if auctions are settled first (`C109_fails`). |
| C111 | `claim_rewards` pays the full share of the pool when there is no report on the operator, and the measured part of it when there is one. A first report therefore never raises the reward and lowers it unless the values are perfect; with the default weights of zero it lowers it to nothing. |
| C117 | "NotEnoughFundsForRentFee" (and the same for the deposit) is also the error when the payer has enough, but the payee has no account and the amount is below the existential deposit (`C117_funds_fails`). "EnclaveAddressAlreadyExists" is the error for an address that an approved update has left behind and no operator uses (`C117_address_fails`, cf. C44). "CannotBidLessThanTheHighestBid" is the error for a bid equal to it (`C117_equal_fails`). `C117_partial` states what does hold: the payment is impossible, the address is on record, the bid does not exceed the highest. |
| C120 | `add_bid` is charged by the number of bids but may rewrite the schedule of auctions; `end_auction` and `buy_it_now` are charged by the schedule but write a refund for every bid; rent calls that make or clear offers, and transmission calls that make or clear consents, are charged by the schedule alone, which may be empty. |
| C130 | `NFTExt::create_nft` takes a collection but checks nothing about it and does not add the NFT to it. The NFT then names a collection that does not list it, and `burn_nft` fails for ever. No pallet in /repo calls it outside tests and benchmarks. |
| C131 | `claim_rewards` demands `active_era.saturating_sub(TeeHistoryDepth) < era`. While the subtraction saturates this excludes era 0 (and only era 0), so the reward of the first era is refused for ever; the same operator one era later is paid (`C131_fails`). `submit_metrics_server_report` files a report under `active_era.saturating_sub(1)`, which in era 0 is era 0 itself (`C131_fails_report`). These are the only two exceptions (`C131_*_partial`). |
| C133 | `submit_metrics_server_report` takes at most `ListSizeLimit` reports on an operator in an era and refuses the rest, so with more submitters the order decides which reports count, and with them the reward. `C133_fails`. |

## Plan per property

| Id | Property | Method |
|----|----------|--------|
| C01 | NFT ids are unique for ever | Invariant `id < nextId` over all reachable states + a step lemma that ids below the counter never become fresh again. |
| C02 | Creator and soulbound flag are immutable | Per-NFT slice transition relation; induction over executions. |
| C03 | Ownership only moves by the owner's own act | Step theorem: for every op, owner change implies one disjunct of an independent `OwnerMove` specification. |
| C04 | An NFT disappears only when its owner burns it | Step theorem by case analysis over all ops. |
| C05 | Soulbound NFTs move at most once | Invariant (soulbound ∧ owner≠creator ⇒ no record of any kind) + step theorem, induction over histories. |
| C06 | One commercial use at a time | Slice invariant `Good`, induction over all ops. |
| C07 | NFT flags agree with the pallets' records | Slice invariant `Good`, induction over all ops. |
| C08 | Collections and NFTs agree | Global invariant on NFT and collection maps. |
| C09 | Closed and limited collections stay so | Step theorem + induction over executions. |
| C10 | Collection membership is permanent | Step theorem + induction. |
| C11 | Sync completes only with enough distinct enclaves of one cluster | Invariant on shard lists + step theorem on the syncing flag. |
| C12 | Burning leaves nothing behind | Invariant `no NFT ⇒ no record`, plus C01 (id never returns). |
| C13 | Secret and capsule data exist exactly for secret and capsule NFTs | Invariant + step theorem. |
| C14 | Mint fees are exact | Decision-logic theorems on post-states, all inputs. |
| C15 | Buying pays the price exactly once and in full | Post-state theorem, as balance-change function per account so coinciding parties are covered. |
| C16 | Terms of a listing are frozen | Step theorem: a sale present before and after a step is the same. |
| C17 | Marketplace control | Step theorem + invariant. |
| C18 | Listing respects the marketplace's access rule | Step theorem with an independent statement of the access rule. |
| C19 | Auction bids form a strict ladder | Invariant on every stored auction. |
| C20 | Auction escrow covers all bids and claims | False in general: counterexample execution (hook payout aborting half-way). Partial: the surplus never falls except in hook payouts that abort; holds for all histories in which no hook payout aborts. C134 bounds the shortfall in the others. |
| C21 | Auction sale proceeds are split exactly | Post-state theorem (conservation of the payment) for all three settlement routes. |
| C22 | Nobody's stake in auctions changes by others' acts | Step theorem on `stake w a = Σ bids of a + claim of a`. |
| C23 | A refund can always be claimed | Theorem on claim in solvent states (claim ≥ ED because bids > ED). |
| C24 | Auction timetable | Step theorems per route. |
| C25 | A late bid leaves everybody the grace period | False when the end block has already passed (hook backlog or stuck auction): counterexample; partial for auctions whose end is not past. |
| C26 | Auction deadlines match auctions | False for stuck auctions: counterexample; partial: deadline entries are sorted, nodup, and each matches its auction; an auction without entry is one whose settlement failed. |
| C27 | Due auctions are settled in bounded time | Liveness by induction on blocks with arbitrary extrinsics in between. |
| C28 | Rental escrow covers all cancellation deposits | Invariant `free pot ≥ Σ deposits` over all histories. |
| C29 | Rental NFT deposits are held safely | Slice invariant with deposit counting. |
| C30 | Contracts are queued exactly once | Invariant relating contracts and the three queues. |
| C31 | Rental deposits are returned on expiry | From C28–C30: hook handling always succeeds. |
| C32 | Revocation pays the damaged party | Post-state theorem on revoke. |
| C33 | A rentee pays only accepted terms | Partial: renewal charges stored fee and never when terms changed; counterexample: terms changed before renting with the same creation block. |
| C34 | Offers bind only to the contract they were made for | False: offers survive expiry of a contract; counterexample; partial: offers are by accounts that called make_rent_offer on this NFT id. |
| C35 | A running rental is never taken over | Step theorem. |
| C36 | Fixed rentals last their full duration | Invariant (queue block = start + duration) + step theorem + liveness. |
| C37 | Transmission goes to the designated recipient | Step theorem + invariant. |
| C38 | No transmission before its time | Step theorem. |
| C39 | Consent threshold is respected | Ghost history of add_consent calls: invariant linking consent list to history; step theorem. |
| C40 | Irrevocable transmissions are irrevocable | Step theorem + induction over futures. |
| C41 | Due transmissions are executed in bounded time | Liveness by induction on blocks with arbitrary extrinsics in between. |
| C42 | Transmission schedule is consistent | Invariant. |
| C43 | Enclave registry is consistent | Invariant (the part which holds). |
| C44 | Only current enclaves authenticate | False: after approve_update_enclave the old address still authenticates; counterexample; partial: authenticating addresses map to an assigned operator. |
| C45 | Stake is locked until unbonding is over | Invariant lock = ledger amount + step theorem. |
| C46 | Active operators are staked | False: withdraw_unbonded before approval; counterexample; partial: active operators without ledger are all in the unregistration list. |
| C47 | Rewards are claimed at most once per era | Invariant on ghost claim log + step theorem. |
| C48 | An era's rewards do not exceed the pool | False (rounding, and the count being read at claim time); counterexample; partial: each claim ≤ share, sum ≤ (number of claims)*share. In all histories: no reward exceeds the largest pool, and all go to different operators (C48_bound, from C47). |
| C49 | Metrics reports are closed before rewards open | Step theorem + arithmetic on eras. |
| C50 | A metrics server can only speak for itself | False: `submitted_by` is not compared with the caller; counterexample; partial: submitter is a registered public server. |
| C51 | Bridge mints at most once per approved transfer | Invariant: ghost mint log nodup, complete proposals stay complete. |
| C52 | Bridge mints need a threshold of distinct relayer votes | Ghost vote log invariant + step theorem. |
| C53 | Bridge mints at most once per deposit nonce | False: proposals are keyed by nonce together with recipient and amount; counterexample. Partial: at most one mint per (chain, nonce, recipient, amount). |
| C54 | Outgoing deposit nonces are unique and increasing | Invariant on the event log. False once root sets the nonce to the largest `u64`: it wraps; counterexample. Partial: histories in which the nonce never gets there. |
| C55 | A bridge deposit burns exactly what it announces | Post-state theorem incl. wrap-around. |
| C56 | Only whitelisted foreign chains bridge | Invariant/step theorem. |
| C57 | Collected fees are paid out exactly once | Invariant with ghost totals. |
| C58 | Era payout never exceeds pot and configured extra | Post-state theorem. |
| C59 | Mandate acts as root only for the configured origin, and always reports success | Recursive `Call` type; theorem by cases. |
| C60 | Only root sets global parameters | Step theorem. |
| C61 | Token supply is conserved | Invariant issuance = Σ free + collected; step theorem on issuance. |
| C62 | Nobody else's tokens are touched | Step theorem. |
| C63 | No panics, and no schedule operation fails | Every `expect`/overflow of the code is an explicit `panic` error value; theorem: a dispatch returns it only if an id counter is exhausted. |
| C64 | Expired contracts and due subscription periods are processed | Liveness by induction on blocks, as C27, C36 and C41. |
| C65 | Nobody is locked in | Enabledness theorems: in every reachable state the call succeeds (from the invariants behind C07, C08, C19, C28–C30) and has the stated effect. |
| C66 | An NFT in nobody's use can be used in every way | Enabledness theorems with the complete post-state: the flags are clear by the flag invariant of C07, payments succeed by the lemmas of Proofs/Pay. |
| C67 | Whoever can pay can mint | Enabledness theorems with the complete post-state. |
| C68 | Owners manage their collections and marketplaces | Enabledness theorems with the complete post-state. |
| C69 | A listed NFT can be bought by everybody who can pay | Enabledness from C15's invariants. False: a share below the existential deposit for an account that does not exist blocks all purchases; counterexample. Partial: all three payees can receive their share. |
| C70 | A running auction can be taken part in | Enabledness from the auction invariant (C19, C26). False for ending an auction: the pot may be reaped between the three payments; counterexample. Partial: pot keeps an existential deposit and payees can receive their shares. |
| C71 | An offered rental can be taken | Enabledness from the rent invariant: the moved queue entry always fits because it leaves another queue first; payments succeed in sequence; NFT fees are free and owned. |
| C72 | A transmission can be reset and consented to | Enabledness with complete effect from the transmission invariant and the consent history (C42). False when the schedule is full: counterexample with ten other transmissions. Partial: room in the schedule. |
| C73 | An enclave operator can enter, leave and be paid | Enabledness with complete effect from the registry and stake invariants (C43, C46); the reward is specified independently as the best reported values, weighted. Counterexamples for the four exceptions. |
| C74 | One report per submitter, the last one counts | Invariant by induction over histories; enabledness with complete effect. |
| C75 | Relayers can approve, depositors can send, governance can act | Enabledness with complete effect: the resulting state is given explicitly. Counterexample for a lowered threshold. |
| C76 | An expired transfer is dead for ever | Induction over the continuation: the recorded proposal and `expiry <= now` are invariant; approval implies an approved record (C51). |
| C77 | Operations touch only the NFTs they are about | Per-call frame lemmas over everything stored under an id; hooks by induction over the entries served. Specification lists by hand which calls concern which NFT. |
| C78 | The content of an NFT is fixed while others rely on it | Complete case list of content changes; freeze as a corollary. Counterexample: the capsule can be replaced during a transmission. |
| C79 | Every call needs the party it belongs to | One table of entitlements over the records, written per call; proved by inversion of every dispatchable. |
| C80 | Nobody rents from themselves, and the list of accounts binds | Counterexample with a left-over offer; induction over histories in which no contract with offers lapses. |
| C81 | A waiting secret or capsule can be completed | `C81_share` gives the effect of one report for secrets and capsules alike; `C81_complete_partial` by induction on the list of reports, with the shares that are recorded as invariant. False as stated (`C81_fails`): the first share decides for a cluster, which may have too few operators or be removed; `C81_stuck` proves that such an NFT waits, with the same owner, in every future. |
| C82 | Ids of clusters and collections are never reused | The counters never fall and everything below them that is gone stays gone (`step_nextCluster`, `step_nextColl`), lifted to all runs. |
| C83 | What root can order, and exactly what happens then | Effects by evaluating `dispatch` at an arbitrary world that meets the stated conditions; the facts about pending requests and servers (`TeeM.GInv`) by induction over runs. File Props/Govern.lean. |
| C84 | Events tell the whole story | `Model/Events.lean` models what every call and hook deposits (`emit`, `history`); `Props/ObserverSpec.lean` is an independent interpreter of events (`see`, `books`) which refers neither to calls nor to hooks; proved call by call in `Proofs/Observe.lean` and lifted to all runs. |
| C85 | Events tell the whole TEE registry | `Model/TeeEvents.lean` models the events; `Spec.notes` replays them; induction over the history with a lemma per call. `C85_slot_not_told` shows two histories with equal events and different slots. |
| C86 | Stake events state true amounts | `Spec.Truthful` compares the stake before and after with the event; case analysis of calls. False for Withdrawn: `C86_fails`; `C86_partial` has the other events, and Withdrawn while the staking amount equals the stake. |
| C87 | Calls are refused in states that do not allow them | `Props/RefuseSpec.lean` lists for every call the condition its documentation states, over the records alone; inversion of every call (`Props/Refuse.lean`), induction over nested mandates |
| C88 | Nothing is planned beyond the configured limits | one invariant per pallet by induction on executions (`Proofs/Horizon.lean`); together with the schedule invariants of C26, C30 and C42 it bounds every queue entry; justifies modelling block numbers as natural numbers |
| C89 | Events tell the bridge's books, but not for whom votes are | events modelled apart from the calls (`Model/BrEvents.lean`); observer's fold specified in `Props/BridgeBooksSpec.lean`; induction on histories; pair of histories with equal events and different balances |
| C90 | Events account for every token that moves | specification assigns payments to events given the observer's books (C84) and the fee tariff; relation `Paying` composed from transfers and fees call by call, hook loops by induction; histories by induction with C84. False where a payout of the auction hook aborts: witness C137 bounds what is missing. |
| C91 | Rent paid for a period holds for the period | `paidUntil` folds the event history to the block until which each NFT's rent is paid (`Props/PeriodSpec.lean`). `Proofs/Period.lean`: every operation keeps the schedules of running contracts equal to it and emits renewals and ends only for entries that are due. `C91`: in every split of a history at a renewal or an end the paid time is over. `C91_told`: the schedule entry of a running contract is `paidUntil`. `C91_apart`: consecutive payments are a term apart. |
| C92 | Block hooks do bounded work | Events emitted and entries taken per run are counted by induction over the hooks' loops (`Props/Work.lean`). `C92_auction`, `C92_transmission`, `C92_tee` hold as stated; `C92_rent_partial` proves the limit plus two, and `C92_fails_rent` shows that this is reached; `C92_auction_work_partial` bounds the auctions worked on if no payout aborts, and `C92_fails_auction` shows that aborted payouts do not count. |
| C93 | What can be taken back leaves no trace | `Spec.AsBefore` lists every storage map apart from balances and id counters. One theorem per pair of calls: the second call succeeds in the state the first one leaves, and the result is as before; balances are compared exactly. Uses that locks without a stake do not exist (C94) and that what is not on record is in no queue. |
| C94 | A stake can always be got back | Two more invariants: no lock without a ledger entry (`Reach.noStray`), and an entry that is not unbonding belongs to a registered, or an assigned and not leaving operator (`Reach.held`). The wait is by induction over the run with the case analysis of stake changes (`step_stake`). |
| C95 | A price seen is the price paid | `Spec.named` reads the price off a call's arguments and the governance fees. Each call's payments are known from C90's bill, so the sender's outgo is bounded by the named price. `mkt_settings` and `contract_terms` carry a marketplace's settings and a firm contract's terms over any run (C17, `step_rent_turn`). |
| C96 | A block hook reports at least the storage writes it makes | Model the read and write counters of the hooks (Model/Weights.lean). A small specification lists the storage items hooks may write and says when one has changed (Props/WeightSpec.lean). Induction on the loops with the set of items each action may change. It holds for transmissions; for the other three hooks weaker bounds are proved and witnesses show that more is written than reported. |
| C97 | No account is special | Renaming of accounts (any injective map) and of byte strings (any map that keeps emptiness) is defined on every type of the model; every function of the model is shown to commute with it, by rewriting; loops by induction. Renamed genesis states are genesis states, so reachability is preserved. |
| C98 | Byte strings are opaque | Instance of the renaming of C97 that keeps accounts and forgets all about a byte string but whether it is empty. |
| C99 | Nothing outlives what it belongs to | Collect the invariants of all reachable states into two records, one for the NFT side and one for the TEE side. Pruning of the per-era tables by induction on histories that keep the pace of eras. Leftovers that exist are proved with witnesses: commissions are never removed (for all histories), offers survive expiry, replaced enclave addresses survive approved updates, and skipped eras are never pruned. |
| C100 | The life cycle of an NFT | `Spec.Use` and `Spec.Is` read the use from the records, `Spec.Edge` lists the ways with their conditions; `C100_one` from the flags invariant, `C100` by cases on the use with what each pallet's operations do to its records, `C100_between` by induction over histories. |
| C101 | Every list stays within its limit | `Spec.Fits` lists all limits; from the invariants of the single pallets, and new inductions for offers, waiting operators, reports and votes. Lists given whole as an argument (allow-lists of contracts and marketplaces, relayers) are bounded by their argument types and not part of it. |
| C102 | A call depends on and changes only what it is about | `Spec.uses` and `Spec.looksAt` list per call what it is about and what it only looks at, `Spec.same` says what agreeing on a piece means. Locality (a relation between two runs) and frame are proved function by function and put together over all signed calls. The TEE pallet and the bridge pallet are one piece each; events are left out (they accumulate); root calls and hooks are not about signed callers and are left out. |
| C103 | Calls about different things do not get in each other's way | From C102: the frame of the other calls gives agreement on what the call is about, locality gives the outcome; what a call is about is itself determined by what it is about (`uses_congr`). Calls that go through the same pot or schedule do meet and are not claimed to commute (see C65 for auctions that get in each other's way through the pot). |
| C104 | Nobody can shut others out | `Spec.Held*` say when an auction, contract, transmission or list of offers is held by given accounts until after a block. Each is kept by every operation not signed by them (from the case analyses `step_auc_turn`, `step_rent_turn`, `step_tr_move`), hence by every continuation; a full list then refuses. `C104_fails` is a reachable state of the example chain; `C104_partial` says a refusal for lack of room finds the list full. |
| C105 | A subscription is paid for at most as often as agreed | Event-level potential: the number of periods that still fit between the block the rent is paid until (C91) and start plus maximal duration. Each event lowers the potential by at least the number of payments it reports, unless it is an acceptance of terms or a new start; renewals happen only while the contract runs, with unchanged terms and before the maximal duration is over. Summed over the history by induction. |
| C106 | Whoever bids gets NFTs or their tokens back | `Props/BidderSpec.lean` reads off the events and the books what an account hands over, gets back and spends (`handsOver`, `getsBack`, `spends`), and sums over a history (`total`). `C106` by induction over the history: one operation changes the stake (`Act.stake`; the hook by induction over its schedule) as its events say, and the books are right (C84, `step_seen`). Settlements that abort are included: they emit nothing and leave the bids. `C106_all` for an account that has nothing left in auctions, `C106_nft` for the owner after the winner's event. C90 ties the same events to balances. |
| C107 | A rental deposit comes back unless its owner breaks off the rental | `Props/DepositSpec.lean` reads off the events and the books what an account deposits, gets back and forfeits (`putsDown`, `recovers`, `forfeits`). `C107` by induction over the history: each call (`Did`) and each step of the hook's three loops changes the deposits in contracts as its event says; the books are right (C84, `step_seen`) and settlement never fails (C28, C31). `C107_all` for an account that revokes nothing. `C107_paid`, `C107_revoked`: the payments that C90 proves are made for these events are what is got back and what the other party gets. Deposits of NFTs are the subject of C29 and C31. |
| C108 | Calls without transaction fee are limited by calls with one | `Model/Fees.lean` adds which calls return `Pays::No` (`Call.free`). `Props/FreeSpec.lean` counts accepted calls of a run. `C108` by induction over the run with the number of shares still missing as potential: an accepted share lowers it by one, only the calls in `begins` raise it, to at most `ShardsNumber`. `C108_all` sums over the NFTs that occur in the run. `C108_paid`: calls in `begins` are not free, and nothing else makes an NFT wait. `C108_secret`: an NFT is given a secret once. `mandate` is free too, but needs the external origin, not a signed one. |
| C109 | The order in which the pallets act at the start of a block does not matter | For each hook list the pieces of state it is about; prove that the hook's effect depends on nothing else and that it changes nothing else. From the invariants: a listed NFT is neither rented, deposited nor in transmission, so in reachable states hooks can only meet at accounts, and only those of auctions and rentals move tokens. Swap neighbours; the total issuance follows from the balanced books. |
| C110 | Having more tokens never makes a call fail or act differently | `Props/RicherSpec.lean` defines when a world is richer and when a list of calls is accepted; `Proofs/Richer.lean` shows a one-way relation for the balance functions and every call (`Le`); runs by induction on the list. Root calls and hooks are not claimed; `C110_hook` shows that the rent hook differs. |
| C111 | A better report never lowers a reward | Monotonicity of `Perbill` arithmetic, of the maximum over reports and of the weighted sum; two-run theorems about `claim_rewards`. The last sentence is false (`C111_fails`): without any report the full share is paid, so a first report can only lower the reward (`C111_none`). |
| C112 | Machine integers make no difference | `Model/Machine.lean` repeats, expression by expression, every definition in which the model computes with unbounded numbers (and the literal loop that searches duplicates in a consent list). Per definition: equal under C88's bounds and the invariants; then per operation, and by induction over histories. `C112_limit` is a reachable state at block 2^32 - 1 where the two differ. |
| C113 | No block number is special | `Props/LaterSpec.lean` says what a state, call or operation `k` blocks later is. Per function: moving commutes with it (queues, auctions, rent, transmission, TEE, bridge, rewards, mandate); then per operation, and by induction over histories. |
| C114 | Time matters only to the calls about time, and idle blocks change nothing | `Props/TimeSpec.lean` lists the calls about dates and says when nothing is due. Per function outside that list: changing the block number commutes with it. Hooks: a queue whose blocks all lie ahead is left alone, the TEE hook has nothing to remove after it has run; induction over the operations of idle blocks. |
| C115 | Exactly when a call is accepted | `Props/AcceptSpec.lean` lists the payments of each call and the room it needs; who may call and which states allow a call are `Spec.Entitled` (C79) and `Spec.Refuse.Fit` (C87). Per call, both directions: an accepted call meets the conditions (by inversion), and under the conditions every check of the function passes. The second direction needs the invariants: NFTs, marketplaces, deposits, stakes and cluster entries that the code looks up and that the conditions do not mention exist in every reachable state. |
| C116 | Lower fees never make a call fail | From C115: conditions other than payments do not mention fees, and a list of payments stays possible when fees in it become smaller (induction over the list, with all balances at least as large after each payment). |
| C117 | An error states a true reason | A specification `Spec.Why` says for each error of each call what it states, in words of the chain's records. Forward: inversion of each call's error into the check that failed. Backward: each reason contradicts the conditions of acceptance (C115). Fails for three names read literally (witnesses), so `C117_partial` uses the reading in `Spec.Why`. |
| C118 | A call made twice in a row counts once | `Spec.EachCounts` lists the exceptions and `Spec.OnlyEvents` says that only events differ. For every other call, both runs are opened and the second is either contradictory or writes what is there already. The converse shows that the exceptions do change a counter or a balance. |
| C119 | Raising limits in an upgrade is safe | `Spec.Looser` lists which constants may differ and in which direction; `Spec.Upgraded` is reachability with upgrades in between. A relation "if the first succeeds so does the second with the same result" is carried through every call; the rent hook, which reinserts subscriptions into a bounded queue, needs the invariant that the queue fits. Constants that decide results and not only acceptance (shards, grace period, bids kept, actions per block, periods, default rent duration, pallet accounts) must be the same. Storage migrations and the decoding of bounded vectors are not modelled. |
| C120 | The size a call is charged by covers the lists it rewrites | The size arguments of the `#[pallet::weight]` attributes are modelled in Model/CallSize. The lists and what it means that they change are in Props/CallSizeSpec. By cases over the calls with the frame lemmas; that a cancelled auction has no bids and a new one takes no other's place needs the invariants. **False for ten combinations** (`C120_fails`): `add_bid` may move the auction in the schedule but is charged by the bids; `end_auction` and `buy_it_now` return all bids but are charged by the schedule; rent calls other than `retract_rent_offer` are charged by the schedules but make or clear offers; `remove_transmission_protocol` and `add_consent` are charged by the schedule but change consents. `C120_partial` covers everything else. The shortfall is limited by the limits of C101. |
| C121 | Which declared errors a caller can meet | Props/FaultSpec lists the errors each pallet declares (generated from the source) and the idle ones. That nothing else is answered follows by cases from the reasons of C117 (Proofs/Fault). That the others are met is an existence claim: Props/FaultCases has one history and call for each of the 235 others, run by the kernel on the demo chain or on one with tight limits. Arguments are assumed to fit their types: consent lists within the bound of the vector, nonces below 2^64. |
| C122 | What governance sets it can set back | Props/RevertSpec gives the call that puts a setting back, what it means that nothing is left, the four settings for good, and the other calls. `C122` by cases, with the invariants that servers have distinct addresses and fit the limit; `C122_for_good` by induction over histories; `C122_all` shows the division is complete. |
| C123 | First come, first served | Props/OrderSpec names the schedules and says what ahead means. Per operation: no entry overtakes one that stays (lemmas on insertion, removal, update and popping of sorted queues; the subscription loop, which reinserts, by induction over its iterations with the invariant that periods are positive). The history follows by induction. `C123_not_across` and `C123_requeue` show that the restrictions in the statement are needed. |
| C124 | Only the last setting counts | `Spec.Overrides` (Props/OverrideSpec) lists which call replaces which, `Spec.outcome` drops the events. Each pair is inverted and re-executed (Proofs/Override): maps by insert-insert, bids by splitting the transfer into parts and re-inserting the bid, queues by update-update. `C124_partial` lifts it to lists of calls. Missing: bids on an auction past its end that is not settled yet; `C124_fails` shows that there bidding in two steps extends the auction further than bidding at once. `C124_needs` shows why partial configurations and final terms are excluded. |
| C125 | What is stored grows only with what calls bring | `Spec.stored` (Props/GrowthSpec) sums entries, list elements and bytes over all maps and lists of the pallets (without the accounts of the balances pallet, single values and the record of events); `Spec.adds` is the table of what each call may bring. Each call is inverted and the tables it changes are added up (Proofs/Growth); starting a rent uses the invariant that a contract without rentee is queued, a forced update that the old address is recorded. `C125_step` for one operation, `C125` for histories, `C125_idle` for histories without calls, `C125_refused`. `C125_leftover` records that calls are not balanced: an auction created and cancelled leaves its commission stored. |
| C126 | Combined calls do what their parts do | Spec.batch runs calls one after the other, all or none; Spec.Splits lists the short forms with the conditions under which they are meant; both sides are shown to be accepted in the same cases and to reach equal worlds, by case analysis on every check and, for bids, the auction and balance invariants. Fails for the change of an enclave's address (C126_fails): approval leaves the old address authenticated, the forced update does not (compare C44). |
| C127 | The order of votes does not matter | Spec.Ballot names the four kinds, Ballot.held lets accounts take part one after the other, Ballot.others is the state without the tally and events, Ballot.count the tally without names. The tally is shown to be the list of distinct eligible participants cut at the number needed, every state along the way a function of it; two sequences with the same members give tallies of equal length. Fails for enclaves of two clusters (C127_fails): the first shard settles the cluster. |
| C128 | No number is special | Spec.Num is a renumbering, Num.world, Num.call and Num.op apply it to states, calls and operations; C128_reads says what that means for what is stored. Shown to commute with every call, hook and operation, pallet by pallet, with schedules renumbered entry by entry; counters never fall, so a renumbering that keeps the numbers to come keeps doing so. |
| C129 | The work at the start of a block ends, and the lists it works on keep order | Model/Code.lean writes vectors (position, try_insert, remove with its panic) and while-let loops down as in the code; a loop is a relation between first and last state, so a loop that does not end relates its state to nothing. C129_auctions, C129_rents and C129_transmissions show by induction on the schedule, and for subscriptions on the actions left, that the relation holds exactly of the state the recursive hooks of the model compute; this also justifies those hooks. C129_insert, C129_pop, C129_entry, C129_bids, C129_flags and C129_check describe the lists and flags with functions of Lean's library only. |
| C130 | What a pallet offers to other pallets keeps the rules of its calls | Model/Ext.lean models the interface functions. C130_partial compares creation without a collection with the call, state for state. C130_fails: with a collection nothing is checked and the collection is not told, so the NFT names a collection that does not list it and its owner cannot burn it. C130_nft, C130_mutate, C130_marketplace and C130_enclave are frame statements. |
| C131 | No era is special | Props/ErasSpec.lean says what a state, call or operation `k` eras later is, and names the two calls that are special (First). Per function: moving the eras commutes with it. C131_settled and C131_launch give histories without such calls. C131_fails and C131_fails_report: subtraction saturates, so that the reward of era 0 is refused for ever and the same reward one era later is paid, and a report in era 0 counts for era 0. |
| C132 | The order of bids does not decide an auction | Spec.bidding runs a list of bids. Rivals.before: induction over the bids before the highest one, keeping that the auction runs, bids are lower, and the bidder can still pay (frame of a transfer); C70 gives acceptance; Rivals.after: lower bids are refused. C132_wealth by induction from the stake accounting of C22. That raising an old bid is accepted needs the pot to cover what it owes (C20), so the bidder is new or the pot covered. |
| C133 | The order of metrics reports does not matter | Spec.reporting runs a list of reports, Spec.reportsOn reads the record, Spec.Heard says whose reports count. Reports.all: induction over the list, from the complete effect of one report (C74), gives the record as a set; equal sets without repetition are permutations, and the reward depends on maxima only. C133_fails: with more reports than the limit the order decides which are taken, and so the reward. |
| C134 | The damage of failed auction payouts is bounded | Spec.unpaid compares schedule and auctions before and after a step, Spec.damage sums along a history. paySeq_lost: a sequence of transfers that may stop anywhere takes at most their sum and the dust of one reaping from the payer; Act.lost and Pop.lost: change of debts against change of the account, per call and per settlement; pops_lost by induction over the settlements of a hook run; C134 by induction over the history. It needs no condition that payouts succeed, which C20 does. |
| C135 | The order of collecting does not matter | Spec.claimRefunds and Spec.claimRewards run lists of claims. Collect.refunds and Collect.rewards: closed formulas for balances and records after any list, by induction with C23, C73_claim and the balance invariant (an account that closes early would break the formula; it cannot, since what is still owed exceeds the existential deposit). C135_orders follows since the formulas depend on the members of the list only. |
| C136 | An auction whose payout failed can be rescued, given a grace period | Reach.overdue, by induction over histories: an auction off the schedule is extended or past its end. So a bid in it sets the extended mark when the grace period is positive, and C70_bid and C70_end apply in turn after the gift (which keeps the account open during the payout); C22 gives the stakes of the others. C136_stuck: step_stuck, one case per auction call and the hook, lifted to histories by induction. |
| C137 | Unannounced payments are bounded | Spec.Hushed: the announced payments and a list of unannounced ones lead from one set of balances to the next. Proved of every settlement of the hook (the aborted one pays a prefix of the three shares, whose sum is the highest bid), lifted to the loop by induction with the bids of the auctions left behind as bound, to operations with step_paying of C90, and to histories by induction. |
| C138 | The order of rental offers does not matter while there is room | Spec.applying (a list of offers as operations), Spec.mayApply. Board.world replaces the table of offers and the event log; every check of an offer but its own two is unchanged by that (RentM.makeOffer_board), so induction on the list of offers gives the state after them. Acceptance commutes with the replacement (Board.start), tests membership only, and erases the offers. C138_last: with one place left the order decides. |
| C139 | What the pallets rely on in the configuration without checking it | Universal parts by induction over histories (auctions, bids) or from the limits of C30, C42 and C101. The necessity of each assumption in Cfg.Ok by a reachable state of a configuration that violates only this assumption: Demo.mixAR, mixRT, mixRW, mixAT, mixAW, bidless. Not covered: a zero existential deposit (refused by the balances pallet itself); teePot ≠ rewPot is not needed by any theorem. |
| C140 | The order of mints decides the numbers and nothing else | Spec.mintAll turns a list of jobs into operations. Induction on the list with C67_nft for each mint: the state after the list is given in closed form (C140_mints); balances are counted by Spec.jobsOf, which is invariant under permutation (C140_order). |
| C141 | When the time has come, the schedule does what the call would do | Equality of whole states. C141_end: the sorted schedule puts the only due auction in front; its settlement is compared with the call's. C141_cancel: Proofs/Blind shows that finishing a contract looks neither at the schedules nor at the offers, so it commutes with replacing them. The announcements of the rent pallet (ContractCanceled, ContractExpired) differ by design and are outside this comparison. The applications left behind are those of C34. |
| C142 | Percentages are exact to half a unit | Spec.PartOf and Spec.LeftOf are inequalities between natural numbers that do not mention the model's multiplication of Permill. Round.frac: the model's rounding is to the nearest; Round.left: the errors of two successive roundings add up to at most one; Round.mono: rounding is monotone and grows by at most one per unit. C15, C21 and C32 supply the amounts. Sp_arithmetic's multiplication itself is in the trusted base (Prelude/Arith). |
| C143 | A reward is the operator's fair share | Spec.Fair and Spec.score are inequalities and sums over natural numbers that do not mention the model's Perbill. Fair.share bounds the equal share by Round.frac (rounding to the nearest) and the remainder of the division of a billion; Fair.scored uses that a score of ten thousandths is exact in billionths; Fair.fair adds the errors up. |
| C144 | The number of actions per block decides only when things happen | Portion.aLoop_add, tLoop_add and fLoop_add: the loop with limit i + j is the loop with limit i followed by the loop with limit j, by induction on the schedule, using that the count can be shifted (…_shift) and that what is done for one entry does not read the schedule (…_dl, …_tq, …_rq). For transmissions a reachable front entry always succeeds, so the schedule is always written back. |
| C145 | All claims of an era together pay out its pool | Pool.one is the fairness of a single reward (as in C143), Pool.add adds the inequalities up by induction on the list of operators, and C135_rewards gives that every claim is accepted and what the account then holds. The bound on the sum shows that the account suffices. |
| C146 | The numbers of auctions and transmissions per block may be changed by upgrades | Spec.Tuned is the upgradable chain. Induction over it: every operation but two hooks does not read the numbers (Tune.step_same), a hook with limit i is i hooks with limit 1 (C144_auctions, Portion.tr), and raised limits are C119's Looser. |
| C147 | Putting off the end of an auction costs tokens | Spec.Lasts is a history in which an auction goes on. extended_near shows that an extended auction ends within the grace period, so nobody can withdraw; Prolong.inv is the induction over the history with the exact turns of an auction (step_auc_turn). C147_fails builds the endless history by induction from C70 (the bid is accepted), C65 (the withdrawal is accepted) and C20_calls (the pot stays covered). |
| C148 | An auction is not over before the announced end | Announced.inv is an induction over Spec.Lasts: the end never moves forward and an extended auction is within a grace period of the announced end; the last step is one of the turns of step_auc_turn. |
| C149 | A subscription that the renter cannot revoke lasts as long as the rentee pays | Spec.owing adds up what a rentee has to pay for all periods that are over; Lease.tick shows that what is left of it stays payable through every iteration of the hook; calls are excluded by the turns of step_rent_turn; C149_partial is an induction over the history. |
| C150 | A standing bid bounds the price from below | Spec.Stands is a history during which the auction goes on, with the number of withdrawals by others; Shield.kept shows by induction that the bid stands, or that the bids of at least v and the withdrawals together are at least the limit; the end is one of the turns of step_auc_turn. |
| C151 | An irrevocable transmission arrives in bounded time | Arrive.stays: by step_tr_move the transmission stays or the hook delivers it; Arrive.without removes the owner's attempts, which change nothing, from the history, so that C41 applies; C151_fails is an induction over the number of blocks with one reset per block. |
| C152 | It does not matter when a reward is claimed | Patience.reports extends C49_claimable to histories, the active era being monotone; the amount is then a function of reports and Spec.basis; C152_score_partial combines this with C143. |
| C153 | One relayer alone cannot stop a transfer | Early.gather is an induction over the history: votes are never lost, and each vote of a relayer before the deadline is recorded or the transfer is approved; counting distinct voters gives the approval. C153_fails combines C75_vote and C76. |
| C154 | Whoever is no relayer any more has no say | Induction over the history: an account that is no relayer enters no list of votes, and a list with its vote keeps its expiry; by Early.expiry_le that is at most a voting period after the removal, and C52's case analysis of approvals does the rest. |
| C155 | A synced secret is held by enough enclaves | Holders.step_shares: a share is recorded only for an operator in its cluster; induction over the history carries that to the end, and C11 says what the completing call finds. |
| C156 | A network of bridged chains creates no tokens | Spec.Network composes copies of the model; each chain runs its share of a common history. C156_owed: an approval has a threshold of distinct voters (C52), one of them is honest, so the deposit was announced earlier in the common history. Approved transfers are distinct (C51), so they inject into the announced deposits; summing over pairs of chains gives C156_paid. With the change of the issuance per operation (C61, C55) summed over all histories this gives C156. |
| C157 | The bridge can always be brought back to work | C157_restored runs the three governance calls from an arbitrary state (a chain that is whitelisted already makes the first call fail without effect) and applies C75_mint_partial to the vote. C157_halted is an induction over histories: approval needs threshold many votes, and the vector of votes is bounded by the relayer limit. |
| C158 | A deposit arrives on the other chain | Composition over Spec.Network (C156): the announced nonces are at most the counter (dep_inv, C54), so with honest voters nobody can have voted for the next nonce; hence the voting period is fresh and C153_partial applies to what happens on the other chain. C153_fails shows why one early dishonest vote must be excluded, C54_fails why the counter must not wrap. |
| C159 | A network of bridged chains loses no tokens | The counterpart of C156. A step lemma bounds what one operation takes from the issuance (C61, C55, C58, and the mint of an approval loses less than the existential deposit as long as it fits). Network.fits derives that it fits: what an approval releases was handed in before (C156_paid), so it is part of the tokens there were at the start. Summed over all histories and chains. |
| C160 | Whoever does nothing loses nothing | Spec.Absent, Spec.NoTenant and Spec.Keeps state it; C160 is an induction over histories with NoTenant as invariant. One step uses C62 (who may lose tokens), C03 and C04 (how NFTs move and vanish), C33 and C35 (who becomes rentee) and the lemmas behind C100 (who puts an NFT to a use). C160_content, C160_market and C160_collection add C78, C17 and C09. |
| C161 | An operator keeps its seat until it asks or is forced | Spec.Seat, Spec.Asks, Spec.asking and Spec.forces state it; C161 is an induction over histories using the registry invariant of C43 (fresh cluster numbers, members listed once, addresses). C161_forced shows that the exception for forced removal is needed. |
| C162 | Whoever leaves NFTs for sale finds the NFTs or the money | Spec.askedNet states what a sale will bring; C162 is an induction over histories that the sum of tokens and dues does not get less. One step uses the moves of listings (step_sale), C15 (a purchase pays out exactly), C78 (the royalty is fixed while listed) and the lemma behind C160 for all other operations. C162_each adds C16. |
| C163 | Whoever leaves an NFT up for auction finds the auction, the NFT or the money | Spec.Offered and Spec.remains state it; C163 is an induction over histories. One step uses the turns of an auction (step_auc_turn), the chain of settlements inside one run of the hook (each pays the seller exactly or leaves the auction and takes from nobody but the pot), C78 for the royalty and C160 for what comes after. The first case includes an auction whose payout failed: it stays in the table and off the schedule (C20_fails, C136). |
| C164 | Whoever leaves an NFT up for rent keeps it and gets the rent | Spec.ToLet and Spec.length state it; C164 and C164_rented are inductions over histories. One step uses the turns of a contract (step_rent_turn), C03 and C04 for the owner, C33_start for the rent and C160 for what comes after. What an NFT given as rent does is C33_start. |
| C165 | What an absent owner has lent or set to be transmitted stays as it was left | Spec.Lent, Spec.AsLeft and Spec.Delivery state it; C165 and C165_lent are inductions over histories. One step uses the moves of a transmission (step_tr_move) with C38 and C39, and for lent NFTs C03, C04 and the exclusion of uses (C06). |
| C166 | Whoever rents for a fixed time and goes away keeps the rental or has the deposit back | Spec.FixedTenant states who is meant; C166, C166_nft and C166_until are inductions over histories. One step uses the turns of a contract (step_rent_turn), C32 for revocations, the chain of ends and renewals of C31 for the hook, C36 for the end block and C62 for who pays. Subscriptions are left out because they draw rent from the rentee; C149 is about them. For an NFT deposited the same chain is followed with C29. |
| C167 | What a subscription costs a rentee that goes away is bounded | Spec.Draws says which contracts draw rent from an account, Spec.instalments counts the payments fallen due. C167 is an induction over histories with the number of payments made as a ghost counter: each renewal plans the next at least one period later, and no other operation plans one for a running contract. An example shows the bound is met. C167_all is the same for any number of subscriptions at once, with one counter for each. C167_none: an absent account from which nothing draws rent loses nothing. |

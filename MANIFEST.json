{
 "claims": [
  {
   "property": "C01",
   "status": "proved",
   "theorems": [
    "C01_below",
    "C01_no_reuse",
    "C01_fresh",
    "C01_create"
   ],
   "note": ""
  },
  {
   "property": "C02",
   "status": "proved",
   "theorems": [
    "C02"
   ],
   "note": ""
  },
  {
   "property": "C03",
   "status": "proved",
   "theorems": [
    "C03",
    "C03_sale",
    "C03_auction",
    "C03_transmission",
    "C03_contract"
   ],
   "note": ""
  },
  {
   "property": "C04",
   "status": "proved",
   "theorems": [
    "C04"
   ],
   "note": ""
  },
  {
   "property": "C05",
   "status": "proved",
   "theorems": [
    "C05"
   ],
   "note": ""
  },
  {
   "property": "C06",
   "status": "proved",
   "theorems": [
    "C06"
   ],
   "note": ""
  },
  {
   "property": "C07",
   "status": "proved",
   "theorems": [
    "C07_flags",
    "C07_records"
   ],
   "note": ""
  },
  {
   "property": "C08",
   "status": "proved",
   "theorems": [
    "C08_mem",
    "C08_coll"
   ],
   "note": ""
  },
  {
   "property": "C09",
   "status": "proved",
   "theorems": [
    "C09_step",
    "C09"
   ],
   "note": ""
  },
  {
   "property": "C10",
   "status": "proved",
   "theorems": [
    "C10"
   ],
   "note": ""
  },
  {
   "property": "C11",
   "status": "proved",
   "theorems": [
    "C11_shards",
    "C11_secret",
    "C11_capsule"
   ],
   "note": ""
  },
  {
   "property": "C12",
   "status": "proved",
   "theorems": [
    "C12"
   ],
   "note": ""
  },
  {
   "property": "C13",
   "status": "proved",
   "theorems": [
    "C13_data",
    "C13_status",
    "C13_secret_frozen"
   ],
   "note": ""
  },
  {
   "property": "C14",
   "status": "proved",
   "theorems": [
    "C14"
   ],
   "note": ""
  },
  {
   "property": "C15",
   "status": "proved",
   "theorems": [
    "C15",
    "C15_commission"
   ],
   "note": ""
  },
  {
   "property": "C16",
   "status": "proved",
   "theorems": [
    "C16"
   ],
   "note": ""
  },
  {
   "property": "C17",
   "status": "proved",
   "theorems": [
    "C17",
    "C17_ids",
    "C17_new"
   ],
   "note": ""
  },
  {
   "property": "C18",
   "status": "proved",
   "theorems": [
    "C18_auction",
    "C18_sale",
    "C18_exact"
   ],
   "note": ""
  },
  {
   "property": "C19",
   "status": "proved",
   "theorems": [
    "C19",
    "C19_highest"
   ],
   "note": ""
  },
  {
   "property": "C20",
   "status": "partial",
   "theorems": [
    "C20_fails",
    "C20_partial",
    "C20_calls",
    "C20_clean",
    "C20_funded",
    "C20_fits"
   ],
   "note": "False of the code as stated (C20_fails: a hook payout that aborts after its first transfer leaves the bid on record and the pot empty). Proved: covered along every history whose hook runs settle all auctions they take off the schedule (C20_partial); all operations but the hook keep it unconditionally (C20_calls); with one existential deposit on top in the pot and existing payees the hook is always clean (C20_clean, C20_funded). C134 bounds the shortfall in all other histories."
  },
  {
   "property": "C21",
   "status": "proved",
   "theorems": [
    "C21_end",
    "C21_buy",
    "C21_hook",
    "C21_each",
    "C21_shares"
   ],
   "note": ""
  },
  {
   "property": "C22",
   "status": "proved",
   "theorems": [
    "C22"
   ],
   "note": ""
  },
  {
   "property": "C23",
   "status": "proved",
   "theorems": [
    "C23"
   ],
   "note": ""
  },
  {
   "property": "C24",
   "status": "proved",
   "theorems": [
    "C24",
    "C24_nft"
   ],
   "note": ""
  },
  {
   "property": "C25",
   "status": "partial",
   "theorems": [
    "C25_partial",
    "C25_late",
    "C25_fails"
   ],
   "note": "False when the end block has already passed (C25_fails). Proved for bids no later than the end block (C25_partial), and exactly what a later bid does (C25_late)."
  },
  {
   "property": "C26",
   "status": "partial",
   "theorems": [
    "C26_sorted",
    "C26_partial",
    "C26_fails",
    "C26_calls"
   ],
   "note": "The direction schedule => auction, order and uniqueness hold always; auction => schedule is false after an aborted hook payout (C26_fails) and proved for histories with clean hook runs (C26_partial) and for every operation but the hook (C26_calls)."
  },
  {
   "property": "C27",
   "status": "proved",
   "theorems": [
    "C27"
   ],
   "note": ""
  },
  {
   "property": "C28",
   "status": "proved",
   "theorems": [
    "C28"
   ],
   "note": ""
  },
  {
   "property": "C29",
   "status": "partial",
   "theorems": [
    "C29_partial",
    "C29_rentee",
    "C29_demo",
    "C29_fails"
   ],
   "note": "False for a renter who names the contract's own NFT as deposit (C29_fails: accepted, not held in escrow). Proved for every other NFT deposit (C29_partial), and that a rentee's deposit is never the contract's own NFT (C29_rentee)."
  },
  {
   "property": "C30",
   "status": "proved",
   "theorems": [
    "C30",
    "C30_room"
   ],
   "note": ""
  },
  {
   "property": "C31",
   "status": "proved",
   "theorems": [
    "C31",
    "C31_released"
   ],
   "note": ""
  },
  {
   "property": "C32",
   "status": "proved",
   "theorems": [
    "C32",
    "C32_possible",
    "C32_flexible",
    "C32_stuck"
   ],
   "note": "C32_stuck records that a flexible revocation can be impossible when the pot has no surplus; the proved sufficient conditions are C32_possible and C32_flexible."
  },
  {
   "property": "C33",
   "status": "partial",
   "theorems": [
    "C33_fails",
    "C33_partial",
    "C33_start"
   ],
   "note": "False at the start of a rental: rent_contract names NFT and creation block only, and the renter can change subscription terms in between (C33_fails). Proved: settled terms of a running contract were agreed to by the rentee and are unchanged since (C33_partial); what the start costs (C33_start); what renewals cost is C31."
  },
  {
   "property": "C34",
   "status": "partial",
   "theorems": [
    "C34_fails",
    "C34_partial"
   ],
   "note": "False: offers survive the expiry of a contract and bind to its successor (C34_fails). Proved: the offer was made, not retracted, and its contract is unchanged unless the hook ended it in between (C34_partial)."
  },
  {
   "property": "C35",
   "status": "proved",
   "theorems": [
    "C35"
   ],
   "note": ""
  },
  {
   "property": "C36",
   "status": "proved",
   "theorems": [
    "C36",
    "C36_ends"
   ],
   "note": ""
  },
  {
   "property": "C37",
   "status": "proved",
   "theorems": [
    "C37"
   ],
   "note": ""
  },
  {
   "property": "C38",
   "status": "proved",
   "theorems": [
    "C38",
    "C38_owner"
   ],
   "note": ""
  },
  {
   "property": "C39",
   "status": "proved",
   "theorems": [
    "C39",
    "C39_events"
   ],
   "note": ""
  },
  {
   "property": "C40",
   "status": "proved",
   "theorems": [
    "C40"
   ],
   "note": ""
  },
  {
   "property": "C41",
   "status": "proved",
   "theorems": [
    "C41",
    "C41_no_error"
   ],
   "note": ""
  },
  {
   "property": "C42",
   "status": "proved",
   "theorems": [
    "C42_sorted",
    "C42_scheduled",
    "C42_consents"
   ],
   "note": ""
  },
  {
   "property": "C43",
   "status": "proved",
   "theorems": [
    "C43_out",
    "C43_in",
    "C43_cluster",
    "C43_address"
   ],
   "note": ""
  },
  {
   "property": "C44",
   "status": "partial",
   "theorems": [
    "C44_current",
    "C44_partial",
    "C44_exact",
    "C44_fails"
   ],
   "note": "False after approve_update_enclave, which keeps the old address (C44_fails). Proved: current addresses pass (C44_current); a passing address was given by root to an assigned operator (C44_partial); exact equivalence in histories without approved updates (C44_exact)."
  },
  {
   "property": "C45",
   "status": "proved",
   "theorems": [
    "C45_locked",
    "C45_release",
    "C45_started"
   ],
   "note": ""
  },
  {
   "property": "C46",
   "status": "partial",
   "theorems": [
    "C46_partial",
    "C46_registered",
    "C46_fails"
   ],
   "note": "False: withdraw_unbonded does not wait for root's approval of the unregistration (C46_fails). Proved for operators without pending unregistration (C46_partial) and pending registrations (C46_registered)."
  },
  {
   "property": "C47",
   "status": "proved",
   "theorems": [
    "C47_exact",
    "C47_once",
    "C47_claim"
   ],
   "note": ""
  },
  {
   "property": "C48",
   "status": "partial",
   "theorems": [
    "C48_bound",
    "C48_fails",
    "C48_fails_shrinking",
    "C48_partial"
   ],
   "note": "False by rounding (C48_fails) and because the share is computed at claim time (C48_fails_shrinking). Proved: with pool and operators fixed while claiming, the excess is at most half a unit per operator (C48_partial); whatever changes in between, no reward exceeds the largest pool and all go to different operators (C48_bound)."
  },
  {
   "property": "C49",
   "status": "proved",
   "theorems": [
    "C49_recorded",
    "C49_closed",
    "C49_claimable"
   ],
   "note": ""
  },
  {
   "property": "C50",
   "status": "partial",
   "theorems": [
    "C50_partial",
    "C50_fails"
   ],
   "note": "False: submitted_by is not compared with the caller (C50_fails). Proved: submitted by some registered public server, in the era after the one reported on (C50_partial)."
  },
  {
   "property": "C51",
   "status": "proved",
   "theorems": [
    "C51_once",
    "C51_mint"
   ],
   "note": ""
  },
  {
   "property": "C52",
   "status": "proved",
   "theorems": [
    "C52"
   ],
   "note": ""
  },
  {
   "property": "C53",
   "status": "partial",
   "theorems": [
    "C53_fails",
    "C53_partial"
   ],
   "note": "False: proposals are keyed by nonce, recipient and amount (C53_fails). Proved under a quorum condition on double-voting relayers (C53_partial)."
  },
  {
   "property": "C54",
   "status": "partial",
   "theorems": [
    "C54_next",
    "C54_fails",
    "C54_partial"
   ],
   "note": "False only after the u64 nonce wraps, which root can bring about with set_deposit_nonce (C54_fails). Proved while the nonce never is the largest u64 (C54_partial)."
  },
  {
   "property": "C55",
   "status": "proved",
   "theorems": [
    "C55",
    "C55_overflow"
   ],
   "note": ""
  },
  {
   "property": "C56",
   "status": "proved",
   "theorems": [
    "C56_added",
    "C56_stays",
    "C56_refused"
   ],
   "note": ""
  },
  {
   "property": "C57",
   "status": "proved",
   "theorems": [
    "C57_charge",
    "C57_total"
   ],
   "note": ""
  },
  {
   "property": "C58",
   "status": "proved",
   "theorems": [
    "C58"
   ],
   "note": ""
  },
  {
   "property": "C59",
   "status": "proved",
   "theorems": [
    "C59_refused",
    "C59_once",
    "C59_nested"
   ],
   "note": ""
  },
  {
   "property": "C60",
   "status": "proved",
   "theorems": [
    "C60_only",
    "C60_ordered"
   ],
   "note": ""
  },
  {
   "property": "C61",
   "status": "proved",
   "theorems": [
    "C61_sum",
    "C61_change"
   ],
   "note": ""
  },
  {
   "property": "C62",
   "status": "proved",
   "theorems": [
    "C62_who",
    "C62_locked",
    "C62_stake"
   ],
   "note": ""
  },
  {
   "property": "C63",
   "status": "proved",
   "theorems": [
    "C63_calls",
    "C63_queues",
    "C63_hooks"
   ],
   "note": "The only panics are exhausted u32 id counters; these are explicit error values in the model."
  },
  {
   "property": "C64",
   "status": "proved",
   "theorems": [
    "C64_unused",
    "C64_subscription"
   ],
   "note": ""
  },
  {
   "property": "C65",
   "status": "partial",
   "theorems": [
    "C65_unlist",
    "C65_auction",
    "C65_rent",
    "C65_offer",
    "C65_transmission",
    "C65_delegation",
    "C65_burn",
    "C65_collection",
    "C65_fails_bid",
    "C65_bid_partial"
   ],
   "note": "All exits are proved for every reachable state, except the withdrawal of a bid when the auction pot is short (C65_fails_bid: an earlier payout that aborted in the hook let a refund be paid out of somebody else's bid). With a covered pot (C20_partial) it always works (C65_bid_partial)."
  },
  {
   "property": "C66",
   "status": "proved",
   "theorems": [
    "C66_transfer",
    "C66_delegate",
    "C66_royalty",
    "C66_list",
    "C66_auction",
    "C66_rent",
    "C66_transmission",
    "C66_secret",
    "C66_capsule",
    "C66_capsule_data"
   ],
   "note": ""
  },
  {
   "property": "C67",
   "status": "proved",
   "theorems": [
    "C67_nft",
    "C67_secret",
    "C67_capsule",
    "C67_coll",
    "C67_market"
   ],
   "note": ""
  },
  {
   "property": "C68",
   "status": "proved",
   "theorems": [
    "C68_close",
    "C68_limit",
    "C68_data",
    "C68_add",
    "C68_owner",
    "C68_kind",
    "C68_config"
   ],
   "note": ""
  },
  {
   "property": "C69",
   "status": "partial",
   "theorems": [
    "C69_partial",
    "C69_fails"
   ],
   "note": "False of the code as stated (C69_fails: a commission of 5 for a marketplace owner whose account does not exist makes every purchase fail). Proved whenever each of the three payees can receive its share (C69_partial)."
  },
  {
   "property": "C70",
   "status": "partial",
   "theorems": [
    "C70_bid_partial",
    "C70_buy_partial",
    "C70_end_partial",
    "C70_fails_bid",
    "C70_fails"
   ],
   "note": "False of the code as stated: ending an auction can fail because paying the commission reaps the pot although it covers all it owes (C70_fails), and raising a bid by less than the existential deposit fails when an aborted payout has emptied the pot (C70_fails_bid). Proved: first bids in full and raises with a covered pot (C70_bid_partial); ending and buying when the pot keeps an existential deposit and the payees can receive their shares (C70_buy_partial, C70_end_partial)."
  },
  {
   "property": "C71",
   "status": "proved",
   "theorems": [
    "C71_rent",
    "C71_offer",
    "C71_accept",
    "C71_change",
    "C71_terms"
   ],
   "note": ""
  },
  {
   "property": "C72",
   "status": "partial",
   "theorems": [
    "C72_reset",
    "C72_consent",
    "C72_deliver",
    "C72_schedule_partial",
    "C72_fails"
   ],
   "note": "Reset, early consents and immediate delivery in full (`C72_reset`, `C72_consent`, `C72_deliver`); `C72_schedule_partial` needs room in the schedule, without which the code refuses the consent (`C72_fails`)."
  },
  {
   "property": "C73",
   "status": "partial",
   "theorems": [
    "C73_register",
    "C73_cancel",
    "C73_assign",
    "C73_leave_partial",
    "C73_approve",
    "C73_remove",
    "C73_withdraw",
    "C73_bond",
    "C73_refund_partial",
    "C73_update",
    "C73_claim_partial",
    "C73_fails_leave",
    "C73_fails_refund",
    "C73_fails_era",
    "C73_fails_address"
   ],
   "note": "In full: register, cancel, assign, approve, remove, withdraw, bond, update. `C73_leave_partial` needs room in the list of requests (`C73_fails_leave`), `C73_refund_partial` a positive staking amount (`C73_fails_refund`), `C73_claim_partial` an era above 0 (`C73_fails_era`); `C73_fails_address` shows that addresses replaced by an approved update are lost."
  },
  {
   "property": "C74",
   "status": "proved",
   "theorems": [
    "C74_one",
    "C74_report"
   ],
   "note": ""
  },
  {
   "property": "C75",
   "status": "partial",
   "theorems": [
    "C75_vote",
    "C75_mint_partial",
    "C75_deposit",
    "C75_govern",
    "C75_fails"
   ],
   "note": "C75_fails: completion is only tried when a vote is cast, so after the threshold is lowered a transfer that all relayers have voted for cannot be completed."
  },
  {
   "property": "C76",
   "status": "proved",
   "theorems": [
    "C76"
   ],
   "note": ""
  },
  {
   "property": "C77",
   "status": "proved",
   "theorems": [
    "C77"
   ],
   "note": ""
  },
  {
   "property": "C78",
   "status": "partial",
   "theorems": [
    "C78",
    "C78_frozen_partial",
    "C78_always",
    "C78_fails"
   ],
   "note": "C78_fails: set_capsule_offchaindata does not check for a running transmission, so the owner can replace the capsule of an NFT that is irrevocably promised to somebody."
  },
  {
   "property": "C79",
   "status": "proved",
   "theorems": [
    "C79",
    "C79_changes"
   ],
   "note": ""
  },
  {
   "property": "C80",
   "status": "partial",
   "theorems": [
    "C80_fails",
    "C80_partial"
   ],
   "note": "C80_fails: an offer survives the contract it was made for, so after a transfer the new owner can accept their own old offer on a contract that admits only somebody else."
  },
  {
   "property": "C81",
   "status": "partial",
   "theorems": [
    "C81_share",
    "C81_complete_partial",
    "C81_stuck",
    "C81_fails"
   ],
   "note": "C81_fails: the first share decides for a cluster; if that cluster is removed, the NFT waits for ever (C81_stuck) although another cluster has enough enclaves."
  },
  {
   "property": "C82",
   "status": "proved",
   "theorems": [
    "C82_cluster",
    "C82_collection"
   ],
   "note": ""
  },
  {
   "property": "C83",
   "status": "proved",
   "theorems": [
    "C83_fees",
    "C83_params",
    "C83_refuse",
    "C83_reject",
    "C83_approve",
    "C83_force",
    "C83_clusters",
    "C83_era",
    "C83_servers_distinct",
    "C83_servers"
   ],
   "note": ""
  },
  {
   "property": "C84",
   "status": "proved",
   "theorems": [
    "C84_events_keep_the_books",
    "C84_events_tell_everything"
   ],
   "note": ""
  },
  {
   "property": "C85",
   "status": "proved",
   "theorems": [
    "C85_events_keep_the_registry",
    "C85_events_tell_the_registry",
    "C85_slot_not_told"
   ],
   "note": ""
  },
  {
   "property": "C86",
   "status": "partial",
   "theorems": [
    "C86_partial",
    "C86_fails"
   ],
   "note": "False for Withdrawn: it states the current staking amount (C86_fails). C86_partial proves the other events, and Withdrawn if the stake equals the current staking amount."
  },
  {
   "property": "C87",
   "status": "proved",
   "theorems": [
    "C87_signed",
    "C87"
   ],
   "note": ""
  },
  {
   "property": "C88",
   "status": "proved",
   "theorems": [
    "C88",
    "C88_fits"
   ],
   "note": ""
  },
  {
   "property": "C89",
   "status": "partial",
   "theorems": [
    "C89_partial",
    "C89_minted",
    "C89_fails"
   ],
   "note": "C89_partial: everything but recipients and amounts of votes; C89_fails: those are not in the events."
  },
  {
   "property": "C90",
   "status": "partial",
   "theorems": [
    "C90_partial",
    "C90_run",
    "C90_fails"
   ],
   "note": "Proved for every operation and history except runs of the auction hook in which a payout aborts, which C90_fails shows to move tokens without any event; C137 bounds these payments."
  },
  {
   "property": "C91",
   "status": "proved",
   "theorems": [
    "C91",
    "C91_told",
    "C91_apart"
   ],
   "note": ""
  },
  {
   "property": "C92",
   "status": "partial",
   "theorems": [
    "C92_auction",
    "C92_auction_work_partial",
    "C92_transmission",
    "C92_rent_partial",
    "C92_tee",
    "C92_fails_rent",
    "C92_fails_auction"
   ],
   "note": "Two parts are false: the rent hook can do two actions more than the limit (`C92_fails_rent`), and the auction hook works on any number of auctions whose payout aborts (`C92_fails_auction`). `C92_rent_partial` has the exact bound limit + 2, `C92_auction_work_partial` excludes aborted payouts."
  },
  {
   "property": "C93",
   "status": "proved",
   "theorems": [
    "C93_sale",
    "C93_delegation",
    "C93_auction",
    "C93_offer",
    "C93_transmission",
    "C93_transfer",
    "C93_collection",
    "C93_nft",
    "C93_rent",
    "C93_bid",
    "C93_registration",
    "C93_update"
   ],
   "note": ""
  },
  {
   "property": "C94",
   "status": "proved",
   "theorems": [
    "C94_lock",
    "C94_exit",
    "C94_wait",
    "C94_back",
    "C94_restart"
   ],
   "note": ""
  },
  {
   "property": "C95",
   "status": "partial",
   "theorems": [
    "C95_partial",
    "C95_fees",
    "C95_list_partial",
    "C95_auction_partial",
    "C95_rent_partial",
    "C95_list_fails",
    "C95_rent_fails"
   ],
   "note": "`C95_list_fails`: `list_nft` (and `create_auction`) name no fee, so the marketplace's owner can raise listing fee and commission right before the listing. `C95_rent_fails`: `rent` names only the creation block, within which the renter can replace the contract by a dearer one. Proved: all other calls; listings and auctions without `set_marketplace_configuration` in between; contracts with firm terms seen after their creation block. C33 and C34 show changed terms and stale offers."
  },
  {
   "property": "C96",
   "status": "partial",
   "theorems": [
    "C96_transmission",
    "C96_rent_partial",
    "C96_auction_partial",
    "C96_tee_partial",
    "C96_fails_auction",
    "C96_fails_auction_unbounded",
    "C96_fails_rent",
    "C96_fails_tee"
   ],
   "note": "C96_transmission proves the transmission hook; the other hooks under-report (C96_fails_auction, C96_fails_auction_unbounded, C96_fails_rent, C96_fails_tee). Proved for them: bounds on what is written in terms of what is reported and of the configured limits (C96_rent_partial, C96_auction_partial, C96_tee_partial)."
  },
  {
   "property": "C97",
   "status": "proved",
   "theorems": [
    "C97_calls",
    "C97_histories",
    "C97_reachable",
    "C97_swap"
   ],
   "note": ""
  },
  {
   "property": "C98",
   "status": "proved",
   "theorems": [
    "C98_calls",
    "C98_histories",
    "C98_assets",
    "C98_stored"
   ],
   "note": ""
  },
  {
   "property": "C99",
   "status": "partial",
   "theorems": [
    "C99_nft_partial",
    "C99_offers_partial",
    "C99_tee",
    "C99_addresses_partial",
    "C99_pruned",
    "C99_commission_stays",
    "C99_fails_commission",
    "C99_fails_offers",
    "C99_fails_addresses",
    "C99_fails_eras"
   ],
   "note": "Partial: commissions, offers of expired contracts and replaced enclave addresses are left over; see the C99_fails theorems."
  },
  {
   "property": "C100",
   "status": "proved",
   "theorems": [
    "C100_one",
    "C100",
    "C100_between"
   ],
   "note": ""
  },
  {
   "property": "C101",
   "status": "proved",
   "theorems": [
    "C101"
   ],
   "note": ""
  },
  {
   "property": "C102",
   "status": "proved",
   "theorems": [
    "C102",
    "C102_frame"
   ],
   "note": "Locality C102 and frame C102_frame cover every signed call in every pair of states, reachable or not; the TEE and bridge pallets count as one piece each."
  },
  {
   "property": "C103",
   "status": "proved",
   "theorems": [
    "C103",
    "C103_order"
   ],
   "note": "C103 (any number of calls in between) and C103_order (two calls in either order). Calls through the same pot or schedule meet and are not covered."
  },
  {
   "property": "C104",
   "status": "partial",
   "theorems": [
    "C104_shut_auctions",
    "C104_shut_transmissions",
    "C104_shut_rentals",
    "C104_shut_offers",
    "C104_partial",
    "C104_fails"
   ],
   "note": "The property fails by design of the limits: C104_shut_auctions, C104_shut_transmissions, C104_shut_rentals and C104_shut_offers prove for every reachable state that a full list stays full until the entries run out whatever others do, C104_fails exhibits it. What holds is C104_partial: a refusal for lack of room only happens when the list is full (see C66, C71 for success with room, C27, C36, C41, C64 for the entries' end)."
  },
  {
   "property": "C105",
   "status": "proved",
   "theorems": [
    "C105",
    "C105_start",
    "C105_once"
   ],
   "note": ""
  },
  {
   "property": "C106",
   "status": "proved",
   "theorems": [
    "C106",
    "C106_all",
    "C106_nft"
   ],
   "note": ""
  },
  {
   "property": "C107",
   "status": "proved",
   "theorems": [
    "C107",
    "C107_all",
    "C107_paid",
    "C107_revoked"
   ],
   "note": ""
  },
  {
   "property": "C108",
   "status": "proved",
   "theorems": [
    "C108",
    "C108_all",
    "C108_paid",
    "C108_secret"
   ],
   "note": ""
  },
  {
   "property": "C109",
   "status": "partial",
   "theorems": [
    "C109_partial",
    "C109_apart",
    "C109_call",
    "C109_fails"
   ],
   "note": "C109_partial: any two orders that keep auctions and rentals in the same order give the same state. C109_apart: all orders do if no account paid by a due auction is party to a due rental. C109_fails: a subscriber who sells by auction keeps the rental or loses it depending on the order. C109_call: calls about other things have the same outcome before and after a hook."
  },
  {
   "property": "C110",
   "status": "proved",
   "theorems": [
    "C110",
    "C110_run",
    "C110_gift",
    "C110_unlock",
    "C110_more",
    "C110_hook"
   ],
   "note": ""
  },
  {
   "property": "C111",
   "status": "partial",
   "theorems": [
    "C111_partial",
    "C111_none",
    "C111_own",
    "C111_submit",
    "C111_fails"
   ],
   "note": "Partial: a first report never helps, see C111_fails."
  },
  {
   "property": "C112",
   "status": "proved",
   "theorems": [
    "C112_call",
    "C112",
    "C112_run",
    "C112_covered",
    "C112_limit"
   ],
   "note": ""
  },
  {
   "property": "C113",
   "status": "proved",
   "theorems": [
    "C113_calls",
    "C113_histories",
    "C113_reachable",
    "C113_launch",
    "C113_assets"
   ],
   "note": ""
  },
  {
   "property": "C114",
   "status": "proved",
   "theorems": [
    "C114_calls",
    "C114_wait",
    "C114_delay",
    "C114_tidy",
    "C114_again"
   ],
   "note": ""
  },
  {
   "property": "C115",
   "status": "proved",
   "theorems": [
    "C115"
   ],
   "note": ""
  },
  {
   "property": "C116",
   "status": "proved",
   "theorems": [
    "C116"
   ],
   "note": ""
  },
  {
   "property": "C117",
   "status": "partial",
   "theorems": [
    "C117_partial",
    "C117_real",
    "C117_complete",
    "C117_funds_fails",
    "C117_address_fails",
    "C117_equal_fails"
   ],
   "note": "C117_partial, C117_real and C117_complete hold for every error in the reading of Spec.Why; read literally, three error names are wrong in some states (C117_funds_fails, C117_address_fails, C117_equal_fails)."
  },
  {
   "property": "C118",
   "status": "proved",
   "theorems": [
    "C118_once",
    "C118_counts"
   ],
   "note": ""
  },
  {
   "property": "C119",
   "status": "proved",
   "theorems": [
    "C119_call",
    "C119_mandate",
    "C119_hooks",
    "C119_upgrade"
   ],
   "note": ""
  },
  {
   "property": "C120",
   "status": "partial",
   "theorems": [
    "C120_partial",
    "C120_fails"
   ],
   "note": "C120_fails shows ten combinations of call and list where the size is too small; C120_partial proves all others."
  },
  {
   "property": "C121",
   "status": "proved",
   "theorems": [
    "C121_only",
    "C121",
    "C121_never"
   ],
   "note": ""
  },
  {
   "property": "C122",
   "status": "proved",
   "theorems": [
    "C122",
    "C122_for_good",
    "C122_all"
   ],
   "note": ""
  },
  {
   "property": "C123",
   "status": "proved",
   "theorems": [
    "C123_sorted",
    "C123_served",
    "C123_no_overtaking",
    "C123",
    "C123_not_across",
    "C123_requeue"
   ],
   "note": ""
  },
  {
   "property": "C124",
   "status": "partial",
   "theorems": [
    "C124_partial",
    "C124_fails",
    "C124_needs"
   ],
   "note": "Proved for all overriding calls except a bid on an auction that is past its end and not yet settled; C124_fails shows that there bidding in two steps leaves a later end than bidding at once."
  },
  {
   "property": "C125",
   "status": "proved",
   "theorems": [
    "C125_step",
    "C125",
    "C125_idle",
    "C125_refused",
    "C125_leftover"
   ],
   "note": ""
  },
  {
   "property": "C126",
   "status": "partial",
   "theorems": [
    "C126_partial",
    "C126_same_partial",
    "C126_refused_partial",
    "C126_fails"
   ],
   "note": "Proved for every short form listed in Spec.Splits. Missing: the change of an enclave's address; C126_fails shows that approving a requested change leaves the old address authenticated while a forced change does not."
  },
  {
   "property": "C127",
   "status": "partial",
   "theorems": [
    "C127_partial",
    "C127_order_partial",
    "C127_fails"
   ],
   "note": "Partial because the first shard settles the cluster: when enclaves of two clusters report, the order decides whether the secret or capsule is finished (C127_fails)."
  },
  {
   "property": "C128",
   "status": "proved",
   "theorems": [
    "C128_calls",
    "C128_histories",
    "C128_swap",
    "C128_existing",
    "C128_reads"
   ],
   "note": ""
  },
  {
   "property": "C129",
   "status": "proved",
   "theorems": [
    "C129_auctions",
    "C129_rents",
    "C129_transmissions",
    "C129_insert",
    "C129_pop",
    "C129_entry",
    "C129_bids",
    "C129_flags",
    "C129_check"
   ],
   "note": ""
  },
  {
   "property": "C130",
   "status": "partial",
   "theorems": [
    "C130_partial",
    "C130_fails",
    "C130_nft",
    "C130_mutate",
    "C130_marketplace",
    "C130_enclave"
   ],
   "note": "Creation with a collection breaks the rule (C130_fails): no check of existence, owner, limit or closure, and no entry in the collection. C130_partial covers creation without a collection; the rest holds in full."
  },
  {
   "property": "C131",
   "status": "partial",
   "theorems": [
    "C131_calls_partial",
    "C131_histories_partial",
    "C131_assets_partial",
    "C131_settled",
    "C131_launch",
    "C131_fails",
    "C131_fails_report"
   ],
   "note": "Two calls are special in the first eras, because subtraction saturates: claiming the reward of era 0 (C131_fails) and reporting in era 0 (C131_fails_report). Proved for every other call, hook and history (C131_*_partial); from the era equal to the history depth on (C131_settled), or if the first era is not 0 (C131_launch), nothing is missing."
  },
  {
   "property": "C132",
   "status": "proved",
   "theorems": [
    "C132",
    "C132_orders",
    "C132_wealth"
   ],
   "note": ""
  },
  {
   "property": "C133",
   "status": "partial",
   "theorems": [
    "C133_record_partial",
    "C133_partial",
    "C133_fails"
   ],
   "note": "False when there are more reports than the list takes (C133_fails); C133_partial assumes room for all."
  },
  {
   "property": "C134",
   "status": "proved",
   "theorems": [
    "C134"
   ],
   "note": ""
  },
  {
   "property": "C135",
   "status": "proved",
   "theorems": [
    "C135_refunds",
    "C135_rewards",
    "C135_orders"
   ],
   "note": ""
  },
  {
   "property": "C136",
   "status": "proved",
   "theorems": [
    "C136_rescue",
    "C136_stuck"
   ],
   "note": ""
  },
  {
   "property": "C137",
   "status": "proved",
   "theorems": [
    "C137",
    "C137_account"
   ],
   "note": ""
  },
  {
   "property": "C138",
   "status": "proved",
   "theorems": [
    "C138_offers",
    "C138_accept",
    "C138_last"
   ],
   "note": ""
  },
  {
   "property": "C139",
   "status": "proved",
   "theorems": [
    "C139_no_auctions",
    "C139_no_bids",
    "C139_no_rentals",
    "C139_no_transmissions",
    "C139_no_votes",
    "C139_shared_auction_rent",
    "C139_shared_rent_tee",
    "C139_shared_rent_staking",
    "C139_shared_auction_tee",
    "C139_shared_auction_staking",
    "C139_bid_panics"
   ],
   "note": ""
  },
  {
   "property": "C140",
   "status": "proved",
   "theorems": [
    "C140_mints",
    "C140_order"
   ],
   "note": ""
  },
  {
   "property": "C141",
   "status": "proved",
   "theorems": [
    "C141_end",
    "C141_cancel",
    "C141_cancel_same"
   ],
   "note": ""
  },
  {
   "property": "C142",
   "status": "proved",
   "theorems": [
    "C142_buy",
    "C142_buy_more",
    "C142_auction",
    "C142_revoke"
   ],
   "note": ""
  },
  {
   "property": "C143",
   "status": "proved",
   "theorems": [
    "C143_reward"
   ],
   "note": ""
  },
  {
   "property": "C144",
   "status": "partial",
   "theorems": [
    "C144_auctions",
    "C144_auctions_many",
    "C144_transmissions",
    "C144_fixed_partial",
    "C144_offers_partial",
    "C144_fails_rent"
   ],
   "note": "False for rentals when several of their schedules are due: each gets one action even when the limit is used up (C144_fails_rent). Proved for rentals when only contracts for a fixed time are due (C144_fixed_partial) or only offers (C144_offers_partial), and in full for auctions and transmissions."
  },
  {
   "property": "C145",
   "status": "proved",
   "theorems": [
    "C145_scores",
    "C145_pool"
   ],
   "note": ""
  },
  {
   "property": "C146",
   "status": "proved",
   "theorems": [
    "C146_upgrade",
    "C146_flags"
   ],
   "note": ""
  },
  {
   "property": "C147",
   "status": "partial",
   "theorems": [
    "C147_start_partial",
    "C147_extended_partial",
    "C147_fails"
   ],
   "note": "Proved when the ending period is at least the grace period. C147_fails: for every other configuration with a grace period above one, one bidder puts off the end beyond every block without cost."
  },
  {
   "property": "C148",
   "status": "partial",
   "theorems": [
    "C148_partial",
    "C148_fails"
   ],
   "note": "C148_fails: an auction announced to end at block 10 is ended by its creator at block 7, right after a bid. C148_partial bounds this by the grace period and excludes every other way."
  },
  {
   "property": "C149",
   "status": "partial",
   "theorems": [
    "C149_step_partial",
    "C149_partial",
    "C149_fails_change",
    "C149_fails_reap"
   ],
   "note": "C149_fails_change: the renter, who cannot revoke, ends a rental after 5 of 50 blocks with a proposal of new terms. C149_fails_reap: the same for a fee below the existential deposit with a transfer of all own tokens. C149_step_partial and C149_partial exclude every other way."
  },
  {
   "property": "C150",
   "status": "partial",
   "theorems": [
    "C150_price_partial",
    "C150_sold_partial",
    "C150_fails"
   ],
   "note": "C150_fails: with room for two bids, two accounts displace bids of 300 and 400, withdraw, and a third gets the NFT for 101. C150_price_partial and C150_sold_partial: with fewer withdrawals than room for bids it cannot happen."
  },
  {
   "property": "C151",
   "status": "partial",
   "theorems": [
    "C151_partial",
    "C151_fails"
   ],
   "note": "C151_fails holds in every reachable state with a resettable transmission before its block: for every N there is a history of N blocks by the owner alone after which the NFT is still theirs. C151_partial is the bound for fixed blocks."
  },
  {
   "property": "C152",
   "status": "partial",
   "theorems": [
    "C152_partial",
    "C152_score_partial",
    "C152_fails"
   ],
   "note": "C152_fails: the same claim is worth 50 at once, 33 after another operator was assigned, 100 after one was removed, and nothing after the operator itself left."
  },
  {
   "property": "C153",
   "status": "partial",
   "theorems": [
    "C153_partial",
    "C153_fails"
   ],
   "note": "C153_fails holds in every reachable state with a threshold above one: one early vote followed by a voting period without others ends the transfer for ever."
  },
  {
   "property": "C154",
   "status": "partial",
   "theorems": [
    "C154_votes_partial",
    "C154_partial",
    "C154_fails"
   ],
   "note": "C154_fails: relayer 1 votes and is replaced; then the single vote of relayer 2 approves the transfer although two are needed."
  },
  {
   "property": "C155",
   "status": "partial",
   "theorems": [
    "C155_shares_partial",
    "C155_partial",
    "C155_fails"
   ],
   "note": "C155_fails: operator 8 stores its share and is removed, then operator 9 stores its own; the secret counts as synced with a single operator left in the registry."
  },
  {
   "property": "C156",
   "status": "proved",
   "theorems": [
    "C156_owed",
    "C156_paid",
    "C156"
   ],
   "note": ""
  },
  {
   "property": "C157",
   "status": "proved",
   "theorems": [
    "C157_restored",
    "C157_halted"
   ],
   "note": ""
  },
  {
   "property": "C158",
   "status": "proved",
   "theorems": [
    "C158"
   ],
   "note": ""
  },
  {
   "property": "C159",
   "status": "proved",
   "theorems": [
    "C159"
   ],
   "note": ""
  },
  {
   "property": "C160",
   "status": "proved",
   "theorems": [
    "C160",
    "C160_content",
    "C160_market",
    "C160_collection"
   ],
   "note": ""
  },
  {
   "property": "C161",
   "status": "proved",
   "theorems": [
    "C161",
    "C161_forced"
   ],
   "note": ""
  },
  {
   "property": "C162",
   "status": "proved",
   "theorems": [
    "C162",
    "C162_each"
   ],
   "note": ""
  },
  {
   "property": "C163",
   "status": "proved",
   "theorems": [
    "C163"
   ],
   "note": ""
  },
  {
   "property": "C164",
   "status": "proved",
   "theorems": [
    "C164",
    "C164_rented"
   ],
   "note": ""
  },
  {
   "property": "C165",
   "status": "proved",
   "theorems": [
    "C165_lent",
    "C165"
   ],
   "note": ""
  },
  {
   "property": "C166",
   "status": "proved",
   "theorems": [
    "C166",
    "C166_until",
    "C166_nft"
   ],
   "note": ""
  },
  {
   "property": "C167",
   "status": "proved",
   "theorems": [
    "C167",
    "C167_none",
    "C167_all"
   ],
   "note": ""
  }
 ]
}
'C01_below' depends on axioms: [propext, Classical.choice, Quot.sound]
'C01_no_reuse' depends on axioms: [propext, Classical.choice, Quot.sound]
'C01_fresh' depends on axioms: [propext, Classical.choice, Quot.sound]
'C01_create' depends on axioms: [propext, Classical.choice, Quot.sound]
'C02' depends on axioms: [propext, Classical.choice, Quot.sound]
'C03' depends on axioms: [propext, Classical.choice, Quot.sound]
'C03_sale' depends on axioms: [propext, Classical.choice, Quot.sound]
'C03_auction' depends on axioms: [propext, Classical.choice, Quot.sound]
'C03_transmission' depends on axioms: [propext, Classical.choice, Quot.sound]
'C03_contract' depends on axioms: [propext, Classical.choice, Quot.sound]
'C04' depends on axioms: [propext, Classical.choice, Quot.sound]
'C05' depends on axioms: [propext, Classical.choice, Quot.sound]
'C06' depends on axioms: [propext, Classical.choice, Quot.sound]
'C07_flags' depends on axioms: [propext, Classical.choice, Quot.sound]
'C07_records' depends on axioms: [propext, Classical.choice, Quot.sound]
'C08_mem' depends on axioms: [propext, Classical.choice, Quot.sound]
'C08_coll' depends on axioms: [propext, Classical.choice, Quot.sound]
'C09_step' depends on axioms: [propext, Classical.choice, Quot.sound]
'C09' depends on axioms: [propext, Classical.choice, Quot.sound]
'C10' depends on axioms: [propext, Classical.choice, Quot.sound]
'C11_shards' depends on axioms: [propext, Classical.choice, Quot.sound]
'C11_secret' depends on axioms: [propext, Classical.choice, Quot.sound]
'C11_capsule' depends on axioms: [propext, Classical.choice, Quot.sound]
'C12' depends on axioms: [propext, Classical.choice, Quot.sound]
'C13_data' depends on axioms: [propext, Classical.choice, Quot.sound]
'C13_status' depends on axioms: [propext, Classical.choice, Quot.sound]
'C13_secret_frozen' depends on axioms: [propext, Classical.choice, Quot.sound]
'C14' depends on axioms: [propext, Classical.choice, Quot.sound]
'C15' depends on axioms: [propext, Classical.choice, Quot.sound]
'C15_commission' depends on axioms: [propext, Classical.choice, Quot.sound]
'C16' depends on axioms: [propext, Classical.choice, Quot.sound]
'C17' depends on axioms: [propext, Classical.choice, Quot.sound]
'C17_ids' depends on axioms: [propext, Classical.choice, Quot.sound]
'C17_new' depends on axioms: [propext, Classical.choice, Quot.sound]
'C18_auction' depends on axioms: [propext, Classical.choice, Quot.sound]
'C18_sale' depends on axioms: [propext, Classical.choice, Quot.sound]
'C18_exact' depends on axioms: [propext, Classical.choice, Quot.sound]
'C19' depends on axioms: [propext, Classical.choice, Quot.sound]
'C19_highest' depends on axioms: [propext, Classical.choice, Quot.sound]
'C20_fails' depends on axioms: [propext, Classical.choice, Quot.sound]
'C20_partial' depends on axioms: [propext, Classical.choice, Quot.sound]
'C20_calls' depends on axioms: [propext, Classical.choice, Quot.sound]
'C20_clean' depends on axioms: [propext, Classical.choice, Quot.sound]
'C20_funded' depends on axioms: [propext, Classical.choice, Quot.sound]
'C20_fits' depends on axioms: [propext, Classical.choice, Quot.sound]
'C21_end' depends on axioms: [propext, Classical.choice, Quot.sound]
'C21_buy' depends on axioms: [propext, Classical.choice, Quot.sound]
'C21_hook' depends on axioms: [propext, Classical.choice, Quot.sound]
'C21_each' depends on axioms: [propext, Classical.choice, Quot.sound]
'C21_shares' depends on axioms: [propext, Classical.choice, Quot.sound]
'C22' depends on axioms: [propext, Classical.choice, Quot.sound]
'C23' depends on axioms: [propext, Classical.choice, Quot.sound]
'C24' depends on axioms: [propext, Classical.choice, Quot.sound]
'C24_nft' depends on axioms: [propext, Classical.choice, Quot.sound]
'C25_partial' depends on axioms: [propext, Classical.choice, Quot.sound]
'C25_late' depends on axioms: [propext, Classical.choice, Quot.sound]
'C25_fails' depends on axioms: [propext, Classical.choice, Quot.sound]
'C26_sorted' depends on axioms: [propext, Classical.choice, Quot.sound]
'C26_partial' depends on axioms: [propext, Classical.choice, Quot.sound]
'C26_fails' depends on axioms: [propext, Classical.choice, Quot.sound]
'C26_calls' depends on axioms: [propext, Classical.choice, Quot.sound]
'C27' depends on axioms: [propext, Classical.choice, Quot.sound]
'C28' depends on axioms: [propext, Classical.choice, Quot.sound]
'C29_partial' depends on axioms: [propext, Classical.choice, Quot.sound]
'C29_rentee' depends on axioms: [propext, Classical.choice, Quot.sound]
'C29_demo' depends on axioms: [propext, Classical.choice, Quot.sound]
'C29_fails' depends on axioms: [propext, Classical.choice, Quot.sound]
'C30' depends on axioms: [propext, Classical.choice, Quot.sound]
'C30_room' depends on axioms: [propext, Classical.choice, Quot.sound]
'C31' depends on axioms: [propext, Classical.choice, Quot.sound]
'C31_released' depends on axioms: [propext, Classical.choice, Quot.sound]
'C32' depends on axioms: [propext, Classical.choice, Quot.sound]
'C32_possible' depends on axioms: [propext, Classical.choice, Quot.sound]
'C32_flexible' depends on axioms: [propext, Classical.choice, Quot.sound]
'C32_stuck' depends on axioms: [propext, Classical.choice, Quot.sound]
'C33_fails' depends on axioms: [propext, Classical.choice, Quot.sound]
'C33_partial' depends on axioms: [propext, Classical.choice, Quot.sound]
'C33_start' depends on axioms: [propext, Classical.choice, Quot.sound]
'C34_fails' depends on axioms: [propext, Classical.choice, Quot.sound]
'C34_partial' depends on axioms: [propext, Classical.choice, Quot.sound]
'C35' depends on axioms: [propext, Classical.choice, Quot.sound]
'C36' depends on axioms: [propext, Classical.choice, Quot.sound]
'C36_ends' depends on axioms: [propext, Classical.choice, Quot.sound]
'C37' depends on axioms: [propext, Classical.choice, Quot.sound]
'C38' depends on axioms: [propext, Classical.choice, Quot.sound]
'C38_owner' depends on axioms: [propext, Classical.choice, Quot.sound]
'C39' depends on axioms: [propext, Classical.choice, Quot.sound]
'C39_events' depends on axioms: [propext, Classical.choice, Quot.sound]
'C40' depends on axioms: [propext, Classical.choice, Quot.sound]
'C41' depends on axioms: [propext, Classical.choice, Quot.sound]
'C41_no_error' depends on axioms: [propext, Classical.choice, Quot.sound]
'C42_sorted' depends on axioms: [propext, Classical.choice, Quot.sound]
'C42_scheduled' depends on axioms: [propext, Classical.choice, Quot.sound]
'C42_consents' depends on axioms: [propext, Classical.choice, Quot.sound]
'C43_out' depends on axioms: [propext, Classical.choice, Quot.sound]
'C43_in' depends on axioms: [propext, Classical.choice, Quot.sound]
'C43_cluster' depends on axioms: [propext, Classical.choice, Quot.sound]
'C43_address' depends on axioms: [propext, Classical.choice, Quot.sound]
'C44_current' depends on axioms: [propext, Classical.choice, Quot.sound]
'C44_partial' depends on axioms: [propext, Classical.choice, Quot.sound]
'C44_exact' depends on axioms: [propext, Classical.choice, Quot.sound]
'C44_fails' depends on axioms: [propext, Classical.choice, Quot.sound]
'C45_locked' depends on axioms: [propext, Classical.choice, Quot.sound]
'C45_release' depends on axioms: [propext, Classical.choice, Quot.sound]
'C45_started' depends on axioms: [propext, Classical.choice, Quot.sound]
'C46_partial' depends on axioms: [propext, Classical.choice, Quot.sound]
'C46_registered' depends on axioms: [propext, Classical.choice, Quot.sound]
'C46_fails' depends on axioms: [propext, Classical.choice, Quot.sound]
'C47_exact' depends on axioms: [propext, Classical.choice, Quot.sound]
'C47_once' depends on axioms: [propext, Classical.choice, Quot.sound]
'C47_claim' depends on axioms: [propext, Classical.choice, Quot.sound]
'C48_bound' depends on axioms: [propext, Classical.choice, Quot.sound]
'C48_fails' depends on axioms: [propext, Classical.choice, Quot.sound]
'C48_fails_shrinking' depends on axioms: [propext, Classical.choice, Quot.sound]
'C48_partial' depends on axioms: [propext, Classical.choice, Quot.sound]
'C49_recorded' depends on axioms: [propext, Classical.choice, Quot.sound]
'C49_closed' depends on axioms: [propext, Classical.choice, Quot.sound]
'C49_claimable' depends on axioms: [propext, Classical.choice, Quot.sound]
'C50_partial' depends on axioms: [propext, Classical.choice, Quot.sound]
'C50_fails' depends on axioms: [propext, Classical.choice, Quot.sound]
'C51_once' depends on axioms: [propext, Classical.choice, Quot.sound]
'C51_mint' depends on axioms: [propext, Classical.choice, Quot.sound]
'C52' depends on axioms: [propext, Classical.choice, Quot.sound]
'C53_fails' depends on axioms: [propext, Classical.choice, Quot.sound]
'C53_partial' depends on axioms: [propext, Classical.choice, Quot.sound]
'C54_next' depends on axioms: [propext, Classical.choice, Quot.sound]
'C54_fails' depends on axioms: [propext, Classical.choice, Quot.sound]
'C54_partial' depends on axioms: [propext, Classical.choice, Quot.sound]
'C55' depends on axioms: [propext, Classical.choice, Quot.sound]
'C55_overflow' depends on axioms: [propext, Classical.choice, Quot.sound]
'C56_added' depends on axioms: [propext, Classical.choice, Quot.sound]
'C56_stays' depends on axioms: [propext, Classical.choice, Quot.sound]
'C56_refused' depends on axioms: [propext, Classical.choice, Quot.sound]
'C57_charge' depends on axioms: [propext, Classical.choice, Quot.sound]
'C57_total' depends on axioms: [propext, Classical.choice, Quot.sound]
'C58' depends on axioms: [propext, Classical.choice, Quot.sound]
'C59_refused' depends on axioms: [propext, Classical.choice, Quot.sound]
'C59_once' depends on axioms: [propext, Classical.choice, Quot.sound]
'C59_nested' depends on axioms: [propext, Classical.choice, Quot.sound]
'C60_only' depends on axioms: [propext, Classical.choice, Quot.sound]
'C60_ordered' depends on axioms: [propext, Classical.choice, Quot.sound]
'C61_sum' depends on axioms: [propext, Classical.choice, Quot.sound]
'C61_change' depends on axioms: [propext, Classical.choice, Quot.sound]
'C62_who' depends on axioms: [propext, Classical.choice, Quot.sound]
'C62_locked' depends on axioms: [propext, Classical.choice, Quot.sound]
'C62_stake' depends on axioms: [propext, Classical.choice, Quot.sound]
'C63_calls' depends on axioms: [propext, Classical.choice, Quot.sound]
'C63_queues' depends on axioms: [propext, Classical.choice, Quot.sound]
'C63_hooks' depends on axioms: [propext, Classical.choice, Quot.sound]
'C64_unused' depends on axioms: [propext, Classical.choice, Quot.sound]
'C64_subscription' depends on axioms: [propext, Classical.choice, Quot.sound]
'C65_unlist' depends on axioms: [propext, Classical.choice, Quot.sound]
'C65_auction' depends on axioms: [propext, Classical.choice, Quot.sound]
'C65_rent' depends on axioms: [propext, Classical.choice, Quot.sound]
'C65_offer' depends on axioms: [propext, Classical.choice, Quot.sound]
'C65_transmission' depends on axioms: [propext, Classical.choice, Quot.sound]
'C65_delegation' depends on axioms: [propext, Classical.choice, Quot.sound]
'C65_burn' depends on axioms: [propext, Classical.choice, Quot.sound]
'C65_collection' depends on axioms: [propext, Classical.choice, Quot.sound]
'C65_fails_bid' depends on axioms: [propext, Classical.choice, Quot.sound]
'C65_bid_partial' depends on axioms: [propext, Classical.choice, Quot.sound]
'C66_transfer' depends on axioms: [propext, Classical.choice, Quot.sound]
'C66_delegate' depends on axioms: [propext, Classical.choice, Quot.sound]
'C66_royalty' depends on axioms: [propext, Classical.choice, Quot.sound]
'C66_list' depends on axioms: [propext, Classical.choice, Quot.sound]
'C66_auction' depends on axioms: [propext, Classical.choice, Quot.sound]
'C66_rent' depends on axioms: [propext, Classical.choice, Quot.sound]
'C66_transmission' depends on axioms: [propext, Classical.choice, Quot.sound]
'C66_secret' depends on axioms: [propext, Classical.choice, Quot.sound]
'C66_capsule' depends on axioms: [propext, Classical.choice, Quot.sound]
'C66_capsule_data' depends on axioms: [propext, Classical.choice, Quot.sound]
'C67_nft' depends on axioms: [propext, Classical.choice, Quot.sound]
'C67_secret' depends on axioms: [propext, Classical.choice, Quot.sound]
'C67_capsule' depends on axioms: [propext, Classical.choice, Quot.sound]
'C67_coll' depends on axioms: [propext, Classical.choice, Quot.sound]
'C67_market' depends on axioms: [propext, Classical.choice, Quot.sound]
'C68_close' depends on axioms: [propext, Classical.choice, Quot.sound]
'C68_limit' depends on axioms: [propext, Classical.choice, Quot.sound]
'C68_data' depends on axioms: [propext, Classical.choice, Quot.sound]
'C68_add' depends on axioms: [propext, Classical.choice, Quot.sound]
'C68_owner' depends on axioms: [propext, Classical.choice, Quot.sound]
'C68_kind' depends on axioms: [propext, Classical.choice, Quot.sound]
'C68_config' depends on axioms: [propext, Classical.choice, Quot.sound]
'C69_partial' depends on axioms: [propext, Classical.choice, Quot.sound]
'C69_fails' depends on axioms: [propext, Classical.choice, Quot.sound]
'C70_bid_partial' depends on axioms: [propext, Classical.choice, Quot.sound]
'C70_buy_partial' depends on axioms: [propext, Classical.choice, Quot.sound]
'C70_end_partial' depends on axioms: [propext, Classical.choice, Quot.sound]
'C70_fails_bid' depends on axioms: [propext, Classical.choice, Quot.sound]
'C70_fails' depends on axioms: [propext, Classical.choice, Quot.sound]
'C71_rent' depends on axioms: [propext, Classical.choice, Quot.sound]
'C71_offer' depends on axioms: [propext, Classical.choice, Quot.sound]
'C71_accept' depends on axioms: [propext, Classical.choice, Quot.sound]
'C71_change' depends on axioms: [propext, Classical.choice, Quot.sound]
'C71_terms' depends on axioms: [propext, Classical.choice, Quot.sound]
'C72_reset' depends on axioms: [propext, Classical.choice, Quot.sound]
'C72_consent' depends on axioms: [propext, Classical.choice, Quot.sound]
'C72_deliver' depends on axioms: [propext, Classical.choice, Quot.sound]
'C72_schedule_partial' depends on axioms: [propext, Classical.choice, Quot.sound]
'C72_fails' depends on axioms: [propext, Classical.choice, Quot.sound]
'C73_register' depends on axioms: [propext, Classical.choice, Quot.sound]
'C73_cancel' depends on axioms: [propext, Classical.choice, Quot.sound]
'C73_assign' depends on axioms: [propext, Classical.choice, Quot.sound]
'C73_leave_partial' depends on axioms: [propext, Classical.choice, Quot.sound]
'C73_approve' depends on axioms: [propext, Classical.choice, Quot.sound]
'C73_remove' depends on axioms: [propext, Classical.choice, Quot.sound]
'C73_withdraw' depends on axioms: [propext, Classical.choice, Quot.sound]
'C73_bond' depends on axioms: [propext, Classical.choice, Quot.sound]
'C73_refund_partial' depends on axioms: [propext, Classical.choice, Quot.sound]
'C73_update' depends on axioms: [propext, Classical.choice, Quot.sound]
'C73_claim_partial' depends on axioms: [propext, Classical.choice, Quot.sound]
'C73_fails_leave' depends on axioms: [propext, Classical.choice, Quot.sound]
'C73_fails_refund' depends on axioms: [propext, Classical.choice, Quot.sound]
'C73_fails_era' depends on axioms: [propext, Classical.choice, Quot.sound]
'C73_fails_address' depends on axioms: [propext, Classical.choice, Quot.sound]
'C74_one' depends on axioms: [propext, Classical.choice, Quot.sound]
'C74_report' depends on axioms: [propext, Classical.choice, Quot.sound]
'C75_vote' depends on axioms: [propext, Classical.choice, Quot.sound]
'C75_mint_partial' depends on axioms: [propext, Classical.choice, Quot.sound]
'C75_deposit' depends on axioms: [propext, Classical.choice, Quot.sound]
'C75_govern' depends on axioms: [propext, Classical.choice, Quot.sound]
'C75_fails' depends on axioms: [propext, Classical.choice, Quot.sound]
'C76' depends on axioms: [propext, Classical.choice, Quot.sound]
'C77' depends on axioms: [propext, Classical.choice, Quot.sound]
'C78' depends on axioms: [propext, Classical.choice, Quot.sound]
'C78_frozen_partial' depends on axioms: [propext, Classical.choice, Quot.sound]
'C78_always' depends on axioms: [propext, Classical.choice, Quot.sound]
'C78_fails' depends on axioms: [propext, Classical.choice, Quot.sound]
'C79' depends on axioms: [propext, Classical.choice, Quot.sound]
'C79_changes' depends on axioms: [propext, Classical.choice, Quot.sound]
'C80_fails' depends on axioms: [propext, Classical.choice, Quot.sound]
'C80_partial' depends on axioms: [propext, Classical.choice, Quot.sound]
'C81_share' depends on axioms: [propext, Classical.choice, Quot.sound]
'C81_complete_partial' depends on axioms: [propext, Classical.choice, Quot.sound]
'C81_stuck' depends on axioms: [propext, Classical.choice, Quot.sound]
'C81_fails' depends on axioms: [propext, Classical.choice, Quot.sound]
'C82_cluster' depends on axioms: [propext, Classical.choice, Quot.sound]
'C82_collection' depends on axioms: [propext, Classical.choice, Quot.sound]
'C83_fees' depends on axioms: [propext, Classical.choice, Quot.sound]
'C83_params' depends on axioms: [propext, Classical.choice, Quot.sound]
'C83_refuse' depends on axioms: [propext, Classical.choice, Quot.sound]
'C83_reject' depends on axioms: [propext, Classical.choice, Quot.sound]
'C83_approve' depends on axioms: [propext, Classical.choice, Quot.sound]
'C83_force' depends on axioms: [propext, Classical.choice, Quot.sound]
'C83_clusters' depends on axioms: [propext, Classical.choice, Quot.sound]
'C83_era' depends on axioms: [propext, Classical.choice, Quot.sound]
'C83_servers_distinct' depends on axioms: [propext, Classical.choice, Quot.sound]
'C83_servers' depends on axioms: [propext, Classical.choice, Quot.sound]
'C84_events_keep_the_books' depends on axioms: [propext, Classical.choice, Quot.sound]
'C84_events_tell_everything' depends on axioms: [propext, Classical.choice, Quot.sound]
'C85_events_keep_the_registry' depends on axioms: [propext, Classical.choice, Quot.sound]
'C85_events_tell_the_registry' depends on axioms: [propext, Classical.choice, Quot.sound]
'C85_slot_not_told' depends on axioms: [propext, Classical.choice, Quot.sound]
'C86_partial' depends on axioms: [propext, Classical.choice, Quot.sound]
'C86_fails' depends on axioms: [propext, Classical.choice, Quot.sound]
'C87_signed' depends on axioms: [propext, Classical.choice, Quot.sound]
'C87' depends on axioms: [propext, Classical.choice, Quot.sound]
'C88' depends on axioms: [propext, Classical.choice, Quot.sound]
'C88_fits' depends on axioms: [propext, Classical.choice, Quot.sound]
'C89_partial' depends on axioms: [propext, Classical.choice, Quot.sound]
'C89_minted' depends on axioms: [propext, Classical.choice, Quot.sound]
'C89_fails' depends on axioms: [propext, Classical.choice, Quot.sound]
'C90_partial' depends on axioms: [propext, Classical.choice, Quot.sound]
'C90_run' depends on axioms: [propext, Classical.choice, Quot.sound]
'C90_fails' depends on axioms: [propext, Classical.choice, Quot.sound]
'C91' depends on axioms: [propext, Classical.choice, Quot.sound]
'C91_told' depends on axioms: [propext, Classical.choice, Quot.sound]
'C91_apart' depends on axioms: [propext, Classical.choice, Quot.sound]
'C92_auction' depends on axioms: [propext, Classical.choice, Quot.sound]
'C92_auction_work_partial' depends on axioms: [propext, Classical.choice, Quot.sound]
'C92_transmission' depends on axioms: [propext, Classical.choice, Quot.sound]
'C92_rent_partial' depends on axioms: [propext, Classical.choice, Quot.sound]
'C92_tee' depends on axioms: [propext, Classical.choice, Quot.sound]
'C92_fails_rent' depends on axioms: [propext, Classical.choice, Quot.sound]
'C92_fails_auction' depends on axioms: [propext, Classical.choice, Quot.sound]
'C93_sale' depends on axioms: [propext, Classical.choice, Quot.sound]
'C93_delegation' depends on axioms: [propext, Classical.choice, Quot.sound]
'C93_auction' depends on axioms: [propext, Classical.choice, Quot.sound]
'C93_offer' depends on axioms: [propext, Classical.choice, Quot.sound]
'C93_transmission' depends on axioms: [propext, Classical.choice, Quot.sound]
'C93_transfer' depends on axioms: [propext, Classical.choice, Quot.sound]
'C93_collection' depends on axioms: [propext, Classical.choice, Quot.sound]
'C93_nft' depends on axioms: [propext, Classical.choice, Quot.sound]
'C93_rent' depends on axioms: [propext, Classical.choice, Quot.sound]
'C93_bid' depends on axioms: [propext, Classical.choice, Quot.sound]
'C93_registration' depends on axioms: [propext, Classical.choice, Quot.sound]
'C93_update' depends on axioms: [propext, Classical.choice, Quot.sound]
'C94_lock' depends on axioms: [propext, Classical.choice, Quot.sound]
'C94_exit' depends on axioms: [propext, Classical.choice, Quot.sound]
'C94_wait' depends on axioms: [propext, Classical.choice, Quot.sound]
'C94_back' depends on axioms: [propext, Classical.choice, Quot.sound]
'C94_restart' depends on axioms: [propext, Classical.choice, Quot.sound]
'C95_partial' depends on axioms: [propext, Classical.choice, Quot.sound]
'C95_fees' depends on axioms: [propext, Classical.choice, Quot.sound]
'C95_list_partial' depends on axioms: [propext, Classical.choice, Quot.sound]
'C95_auction_partial' depends on axioms: [propext, Classical.choice, Quot.sound]
'C95_rent_partial' depends on axioms: [propext, Classical.choice, Quot.sound]
'C95_list_fails' depends on axioms: [propext, Classical.choice, Quot.sound]
'C95_rent_fails' depends on axioms: [propext, Classical.choice, Quot.sound]
'C96_transmission' depends on axioms: [propext, Classical.choice, Quot.sound]
'C96_rent_partial' depends on axioms: [propext, Classical.choice, Quot.sound]
'C96_auction_partial' depends on axioms: [propext, Classical.choice, Quot.sound]
'C96_tee_partial' depends on axioms: [propext, Classical.choice, Quot.sound]
'C96_fails_auction' depends on axioms: [propext, Classical.choice, Quot.sound]
'C96_fails_auction_unbounded' depends on axioms: [propext, Classical.choice, Quot.sound]
'C96_fails_rent' depends on axioms: [propext, Classical.choice, Quot.sound]
'C96_fails_tee' depends on axioms: [propext, Classical.choice, Quot.sound]
'C97_calls' depends on axioms: [propext, Classical.choice, Quot.sound]
'C97_histories' depends on axioms: [propext, Classical.choice, Quot.sound]
'C97_reachable' depends on axioms: [propext, Classical.choice, Quot.sound]
'C97_swap' depends on axioms: [propext, Classical.choice, Quot.sound]
'C98_calls' depends on axioms: [propext, Classical.choice, Quot.sound]
'C98_histories' depends on axioms: [propext, Classical.choice, Quot.sound]
'C98_assets' depends on axioms: [propext, Classical.choice, Quot.sound]
'C98_stored' depends on axioms: [propext, Classical.choice, Quot.sound]
'C99_nft_partial' depends on axioms: [propext, Classical.choice, Quot.sound]
'C99_offers_partial' depends on axioms: [propext, Classical.choice, Quot.sound]
'C99_tee' depends on axioms: [propext, Classical.choice, Quot.sound]
'C99_addresses_partial' depends on axioms: [propext, Classical.choice, Quot.sound]
'C99_pruned' depends on axioms: [propext, Classical.choice, Quot.sound]
'C99_commission_stays' depends on axioms: [propext, Classical.choice, Quot.sound]
'C99_fails_commission' depends on axioms: [propext, Classical.choice, Quot.sound]
'C99_fails_offers' depends on axioms: [propext, Classical.choice, Quot.sound]
'C99_fails_addresses' depends on axioms: [propext, Classical.choice, Quot.sound]
'C99_fails_eras' depends on axioms: [propext, Classical.choice, Quot.sound]
'C100_one' depends on axioms: [propext, Classical.choice, Quot.sound]
'C100' depends on axioms: [propext, Classical.choice, Quot.sound]
'C100_between' depends on axioms: [propext, Classical.choice, Quot.sound]
'C101' depends on axioms: [propext, Classical.choice, Quot.sound]
'C102' depends on axioms: [propext, Classical.choice, Quot.sound]
'C102_frame' depends on axioms: [propext, Classical.choice, Quot.sound]
'C103' depends on axioms: [propext, Classical.choice, Quot.sound]
'C103_order' depends on axioms: [propext, Classical.choice, Quot.sound]
'C104_shut_auctions' depends on axioms: [propext, Classical.choice, Quot.sound]
'C104_shut_transmissions' depends on axioms: [propext, Classical.choice, Quot.sound]
'C104_shut_rentals' depends on axioms: [propext, Classical.choice, Quot.sound]
'C104_shut_offers' depends on axioms: [propext, Classical.choice, Quot.sound]
'C104_partial' depends on axioms: [propext, Classical.choice, Quot.sound]
'C104_fails' depends on axioms: [propext, Classical.choice, Quot.sound]
'C105' depends on axioms: [propext, Classical.choice, Quot.sound]
'C105_start' depends on axioms: [propext, Classical.choice, Quot.sound]
'C105_once' depends on axioms: [propext, Classical.choice, Quot.sound]
'C106' depends on axioms: [propext, Classical.choice, Quot.sound]
'C106_all' depends on axioms: [propext, Classical.choice, Quot.sound]
'C106_nft' depends on axioms: [propext, Classical.choice, Quot.sound]
'C107' depends on axioms: [propext, Classical.choice, Quot.sound]
'C107_all' depends on axioms: [propext, Classical.choice, Quot.sound]
'C107_paid' depends on axioms: [propext, Quot.sound]
'C107_revoked' depends on axioms: [propext, Classical.choice, Quot.sound]
'C108' depends on axioms: [propext, Classical.choice, Quot.sound]
'C108_all' depends on axioms: [propext, Classical.choice, Quot.sound]
'C108_paid' depends on axioms: [propext, Classical.choice, Quot.sound]
'C108_secret' depends on axioms: [propext, Classical.choice, Quot.sound]
'C109_partial' depends on axioms: [propext, Classical.choice, Quot.sound]
'C109_apart' depends on axioms: [propext, Classical.choice, Quot.sound]
'C109_call' depends on axioms: [propext, Classical.choice, Quot.sound]
'C109_fails' depends on axioms: [propext, Classical.choice, Quot.sound]
'C110' depends on axioms: [propext, Classical.choice, Quot.sound]
'C110_run' depends on axioms: [propext, Classical.choice, Quot.sound]
'C110_gift' depends on axioms: [propext, Classical.choice, Quot.sound]
'C110_unlock' depends on axioms: [propext, Classical.choice, Quot.sound]
'C110_more' depends on axioms: [propext, Classical.choice, Quot.sound]
'C110_hook' depends on axioms: [propext, Classical.choice, Quot.sound]
'C111_partial' depends on axioms: [propext, Classical.choice, Quot.sound]
'C111_none' depends on axioms: [propext, Classical.choice, Quot.sound]
'C111_own' depends on axioms: [propext, Classical.choice, Quot.sound]
'C111_submit' depends on axioms: [propext, Classical.choice, Quot.sound]
'C111_fails' depends on axioms: [propext, Classical.choice, Quot.sound]
'C112_call' depends on axioms: [propext, Classical.choice, Quot.sound]
'C112' depends on axioms: [propext, Classical.choice, Quot.sound]
'C112_run' depends on axioms: [propext, Classical.choice, Quot.sound]
'C112_covered' depends on axioms: [propext, Classical.choice, Quot.sound]
'C112_limit' depends on axioms: [propext, Classical.choice, Quot.sound]
'C113_calls' depends on axioms: [propext, Classical.choice, Quot.sound]
'C113_histories' depends on axioms: [propext, Classical.choice, Quot.sound]
'C113_reachable' depends on axioms: [propext, Classical.choice, Quot.sound]
'C113_launch' depends on axioms: [propext, Classical.choice, Quot.sound]
'C113_assets' depends on axioms: [propext, Classical.choice, Quot.sound]
'C114_calls' depends on axioms: [propext, Classical.choice, Quot.sound]
'C114_wait' depends on axioms: [propext, Classical.choice, Quot.sound]
'C114_delay' depends on axioms: [propext, Classical.choice, Quot.sound]
'C114_tidy' depends on axioms: [propext, Classical.choice, Quot.sound]
'C114_again' depends on axioms: [propext, Classical.choice, Quot.sound]
'C115' depends on axioms: [propext, Classical.choice, Quot.sound]
'C116' depends on axioms: [propext, Classical.choice, Quot.sound]
'C117_partial' depends on axioms: [propext, Classical.choice, Quot.sound]
'C117_real' depends on axioms: [propext, Classical.choice, Quot.sound]
'C117_complete' depends on axioms: [propext, Classical.choice, Quot.sound]
'C117_funds_fails' depends on axioms: [propext, Classical.choice, Quot.sound]
'C117_address_fails' depends on axioms: [propext, Classical.choice, Quot.sound]
'C117_equal_fails' depends on axioms: [propext, Classical.choice, Quot.sound]
'C118_once' depends on axioms: [propext, Classical.choice, Quot.sound]
'C118_counts' depends on axioms: [propext, Classical.choice, Quot.sound]
'C119_call' depends on axioms: [propext, Classical.choice, Quot.sound]
'C119_mandate' depends on axioms: [propext, Classical.choice, Quot.sound]
'C119_hooks' depends on axioms: [propext, Classical.choice, Quot.sound]
'C119_upgrade' depends on axioms: [propext, Classical.choice, Quot.sound]
'C120_partial' depends on axioms: [propext, Classical.choice, Quot.sound]
'C120_fails' depends on axioms: [propext, Classical.choice, Quot.sound]
'C121_only' depends on axioms: [propext, Classical.choice, Quot.sound]
'C121' depends on axioms: [propext, Classical.choice, Quot.sound]
'C121_never' depends on axioms: [propext, Classical.choice, Quot.sound]
'C122' depends on axioms: [propext, Classical.choice, Quot.sound]
'C122_for_good' depends on axioms: [propext, Classical.choice, Quot.sound]
'C122_all' depends on axioms: [propext, Classical.choice, Quot.sound]
'C123_sorted' depends on axioms: [propext, Classical.choice, Quot.sound]
'C123_served' depends on axioms: [propext, Classical.choice, Quot.sound]
'C123_no_overtaking' depends on axioms: [propext, Classical.choice, Quot.sound]
'C123' depends on axioms: [propext, Classical.choice, Quot.sound]
'C123_not_across' depends on axioms: [propext, Classical.choice, Quot.sound]
'C123_requeue' depends on axioms: [propext, Classical.choice, Quot.sound]
'C124_partial' depends on axioms: [propext, Classical.choice, Quot.sound]
'C124_fails' depends on axioms: [propext, Classical.choice, Quot.sound]
'C124_needs' depends on axioms: [propext, Classical.choice, Quot.sound]
'C125_step' depends on axioms: [propext, Classical.choice, Quot.sound]
'C125' depends on axioms: [propext, Classical.choice, Quot.sound]
'C125_idle' depends on axioms: [propext, Classical.choice, Quot.sound]
'C125_refused' depends on axioms: [propext, Classical.choice, Quot.sound]
'C125_leftover' depends on axioms: [propext, Classical.choice, Quot.sound]
'C126_partial' depends on axioms: [propext, Classical.choice, Quot.sound]
'C126_same_partial' depends on axioms: [propext, Classical.choice, Quot.sound]
'C126_refused_partial' depends on axioms: [propext, Classical.choice, Quot.sound]
'C126_fails' depends on axioms: [propext, Classical.choice, Quot.sound]
'C127_partial' depends on axioms: [propext, Classical.choice, Quot.sound]
'C127_order_partial' depends on axioms: [propext, Classical.choice, Quot.sound]
'C127_fails' depends on axioms: [propext, Classical.choice, Quot.sound]
'C128_calls' depends on axioms: [propext, Classical.choice, Quot.sound]
'C128_histories' depends on axioms: [propext, Classical.choice, Quot.sound]
'C128_swap' depends on axioms: [propext, Classical.choice, Quot.sound]
'C128_existing' depends on axioms: [propext, Classical.choice, Quot.sound]
'C128_reads' depends on axioms: [propext, Quot.sound]
'C129_auctions' depends on axioms: [propext, Classical.choice, Quot.sound]
'C129_rents' depends on axioms: [propext, Classical.choice, Quot.sound]
'C129_transmissions' depends on axioms: [propext, Classical.choice, Quot.sound]
'C129_insert' depends on axioms: [propext, Quot.sound]
'C129_pop' depends on axioms: [propext, Quot.sound]
'C129_entry' depends on axioms: [propext, Classical.choice, Quot.sound]
'C129_bids' depends on axioms: [propext, Classical.choice, Quot.sound]
'C129_flags' depends on axioms: [propext]
'C129_check' depends on axioms: [propext, Quot.sound]
'C130_partial' depends on axioms: [propext, Classical.choice, Quot.sound]
'C130_fails' depends on axioms: [propext, Classical.choice, Quot.sound]
'C130_nft' depends on axioms: [propext, Classical.choice, Quot.sound]
'C130_mutate' depends on axioms: [propext, Classical.choice, Quot.sound]
'C130_marketplace' depends on axioms: [propext, Classical.choice, Quot.sound]
'C130_enclave' depends on axioms: [propext, Classical.choice, Quot.sound]
'C131_calls_partial' depends on axioms: [propext, Classical.choice, Quot.sound]
'C131_histories_partial' depends on axioms: [propext, Classical.choice, Quot.sound]
'C131_assets_partial' depends on axioms: [propext, Classical.choice, Quot.sound]
'C131_settled' depends on axioms: [propext, Classical.choice, Quot.sound]
'C131_launch' depends on axioms: [propext, Classical.choice, Quot.sound]
'C131_fails' depends on axioms: [propext, Classical.choice, Quot.sound]
'C131_fails_report' depends on axioms: [propext, Classical.choice, Quot.sound]
'C132' depends on axioms: [propext, Classical.choice, Quot.sound]
'C132_orders' depends on axioms: [propext, Classical.choice, Quot.sound]
'C132_wealth' depends on axioms: [propext, Classical.choice, Quot.sound]
'C133_record_partial' depends on axioms: [propext, Classical.choice, Quot.sound]
'C133_partial' depends on axioms: [propext, Classical.choice, Quot.sound]
'C133_fails' depends on axioms: [propext, Classical.choice, Quot.sound]
'C134' depends on axioms: [propext, Classical.choice, Quot.sound]
'C135_refunds' depends on axioms: [propext, Classical.choice, Quot.sound]
'C135_rewards' depends on axioms: [propext, Classical.choice, Quot.sound]
'C135_orders' depends on axioms: [propext, Classical.choice, Quot.sound]
'C136_rescue' depends on axioms: [propext, Classical.choice, Quot.sound]
'C136_stuck' depends on axioms: [propext, Classical.choice, Quot.sound]
'C137' depends on axioms: [propext, Classical.choice, Quot.sound]
'C137_account' depends on axioms: [propext, Classical.choice, Quot.sound]
'C138_offers' depends on axioms: [propext, Classical.choice, Quot.sound]
'C138_accept' depends on axioms: [propext, Classical.choice, Quot.sound]
'C138_last' depends on axioms: [propext, Classical.choice, Quot.sound]
'C139_no_auctions' depends on axioms: [propext, Classical.choice, Quot.sound]
'C139_no_bids' depends on axioms: [propext, Classical.choice, Quot.sound]
'C139_no_rentals' depends on axioms: [propext, Classical.choice, Quot.sound]
'C139_no_transmissions' depends on axioms: [propext, Classical.choice, Quot.sound]
'C139_no_votes' depends on axioms: [propext, Classical.choice, Quot.sound]
'C139_shared_auction_rent' depends on axioms: [propext, Classical.choice, Quot.sound]
'C139_shared_rent_tee' depends on axioms: [propext, Classical.choice, Quot.sound]
'C139_shared_rent_staking' depends on axioms: [propext, Classical.choice, Quot.sound]
'C139_shared_auction_tee' depends on axioms: [propext, Classical.choice, Quot.sound]
'C139_shared_auction_staking' depends on axioms: [propext, Classical.choice, Quot.sound]
'C139_bid_panics' depends on axioms: [propext, Classical.choice, Quot.sound]
'C140_mints' depends on axioms: [propext, Classical.choice, Quot.sound]
'C140_order' depends on axioms: [propext, Classical.choice, Quot.sound]
'C141_end' depends on axioms: [propext, Classical.choice, Quot.sound]
'C141_cancel' depends on axioms: [propext, Classical.choice, Quot.sound]
'C141_cancel_same' depends on axioms: [propext, Classical.choice, Quot.sound]
'C142_buy' depends on axioms: [propext, Classical.choice, Quot.sound]
'C142_buy_more' depends on axioms: [propext, Classical.choice, Quot.sound]
'C142_auction' depends on axioms: [propext, Classical.choice, Quot.sound]
'C142_revoke' depends on axioms: [propext, Classical.choice, Quot.sound]
'C143_reward' depends on axioms: [propext, Classical.choice, Quot.sound]
'C144_auctions' depends on axioms: [propext, Classical.choice, Quot.sound]
'C144_auctions_many' depends on axioms: [propext, Classical.choice, Quot.sound]
'C144_transmissions' depends on axioms: [propext, Classical.choice, Quot.sound]
'C144_fixed_partial' depends on axioms: [propext, Classical.choice, Quot.sound]
'C144_offers_partial' depends on axioms: [propext, Classical.choice, Quot.sound]
'C144_fails_rent' depends on axioms: [propext, Classical.choice, Quot.sound]
'C145_scores' depends on axioms: [propext, Classical.choice, Quot.sound]
'C145_pool' depends on axioms: [propext, Classical.choice, Quot.sound]
'C146_upgrade' depends on axioms: [propext, Classical.choice, Quot.sound]
'C146_flags' depends on axioms: [propext, Classical.choice, Quot.sound]
'C147_start_partial' depends on axioms: [propext, Classical.choice, Quot.sound]
'C147_extended_partial' depends on axioms: [propext, Classical.choice, Quot.sound]
'C147_fails' depends on axioms: [propext, Classical.choice, Quot.sound]
'C148_partial' depends on axioms: [propext, Classical.choice, Quot.sound]
'C148_fails' depends on axioms: [propext, Classical.choice, Quot.sound]
'C149_step_partial' depends on axioms: [propext, Classical.choice, Quot.sound]
'C149_partial' depends on axioms: [propext, Classical.choice, Quot.sound]
'C149_fails_change' depends on axioms: [propext, Classical.choice, Quot.sound]
'C149_fails_reap' depends on axioms: [propext, Classical.choice, Quot.sound]
'C150_price_partial' depends on axioms: [propext, Classical.choice, Quot.sound]
'C150_sold_partial' depends on axioms: [propext, Classical.choice, Quot.sound]
'C150_fails' depends on axioms: [propext, Classical.choice, Quot.sound]
'C151_partial' depends on axioms: [propext, Classical.choice, Quot.sound]
'C151_fails' depends on axioms: [propext, Classical.choice, Quot.sound]
'C152_partial' depends on axioms: [propext, Classical.choice, Quot.sound]
'C152_score_partial' depends on axioms: [propext, Classical.choice, Quot.sound]
'C152_fails' depends on axioms: [propext, Classical.choice, Quot.sound]
'C153_partial' depends on axioms: [propext, Classical.choice, Quot.sound]
'C153_fails' depends on axioms: [propext, Classical.choice, Quot.sound]
'C154_votes_partial' depends on axioms: [propext, Classical.choice, Quot.sound]
'C154_partial' depends on axioms: [propext, Classical.choice, Quot.sound]
'C154_fails' depends on axioms: [propext, Classical.choice, Quot.sound]
'C155_shares_partial' depends on axioms: [propext, Classical.choice, Quot.sound]
'C155_partial' depends on axioms: [propext, Classical.choice, Quot.sound]
'C155_fails' depends on axioms: [propext, Classical.choice, Quot.sound]
'C156_owed' depends on axioms: [propext, Classical.choice, Quot.sound]
'C156_paid' depends on axioms: [propext, Classical.choice, Quot.sound]
'C156' depends on axioms: [propext, Classical.choice, Quot.sound]
'C157_restored' depends on axioms: [propext, Classical.choice, Quot.sound]
'C157_halted' depends on axioms: [propext, Classical.choice, Quot.sound]
'C158' depends on axioms: [propext, Classical.choice, Quot.sound]
'C159' depends on axioms: [propext, Classical.choice, Quot.sound]
'C160' depends on axioms: [propext, Classical.choice, Quot.sound]
'C160_content' depends on axioms: [propext, Classical.choice, Quot.sound]
'C160_market' depends on axioms: [propext, Classical.choice, Quot.sound]
'C160_collection' depends on axioms: [propext, Classical.choice, Quot.sound]
'C161' depends on axioms: [propext, Classical.choice, Quot.sound]
'C161_forced' depends on axioms: [propext, Classical.choice, Quot.sound]
'C162' depends on axioms: [propext, Classical.choice, Quot.sound]
'C162_each' depends on axioms: [propext, Classical.choice, Quot.sound]
'C163' depends on axioms: [propext, Classical.choice, Quot.sound]
'C164' depends on axioms: [propext, Classical.choice, Quot.sound]
'C164_rented' depends on axioms: [propext, Classical.choice, Quot.sound]
'C165_lent' depends on axioms: [propext, Classical.choice, Quot.sound]
'C165' depends on axioms: [propext, Classical.choice, Quot.sound]
'C166' depends on axioms: [propext, Classical.choice, Quot.sound]
'C166_until' depends on axioms: [propext, Classical.choice, Quot.sound]
'C166_nft' depends on axioms: [propext, Classical.choice, Quot.sound]
'C167' depends on axioms: [propext, Classical.choice, Quot.sound]
'C167_none' depends on axioms: [propext, Classical.choice, Quot.sound]
'C167_all' depends on axioms: [propext, Classical.choice, Quot.sound]

import Verif.Props.ObserverSpec
import Verif.Props.Sync
/-
What an observer writes down is what the operations store, call by call and hook by hook.
-/
open Spec

variable {c : Cfg} {w w' : World} {a : AccountId}

/-- the observer reads the events of one operation -/
abbrev Spec.reads (c : Cfg) (now : Block) (v : View) (l : List Event) : View := l.foldl (see c.rentPot c.grace now) v

macro "view" : tactic => `(tactic| (
  simp only [Spec.reads, List.foldl_cons, List.foldl_nil, see]
  apply View.ext <;> (first | rfl | (
    funext m
    simp only [truth, View.flag, View.give, View.on, View.put, View.at_, FMap.get_insert, FMap.get_erase, FMap.get_set,
      World.putNft, World.putBal, World.ev] <;>
    (first | rfl | (split <;> simp_all))))))

theorem NftM.create_eq {d r k sb} (h : createHelper c w a d r k sb = .ok w') :
    w'.nft.nextNft = w.nft.nextNft + 1 ∧ w'.nft.fee = w.nft.fee ∧
    truth w' = reads c w.now (truth w) [.nftCreated w.nft.nextNft a d r k sb w.nft.fee] := by
  simp only [createHelper, nextNftId] at h
  inv_ok at h
  obtain ⟨b, w1, y, n, hb, h1, hn, rfl, rfl⟩ := h
  cases k with
  | none =>
    simp only [pushToColl] at h1; inv_ok at h1; subst h1
    split at hn <;> simp at hn
    subst hn
    refine ⟨rfl, rfl, ?_⟩
    view
  | some k =>
    simp only [pushToColl] at h1; inv_ok at h1
    obtain ⟨col, hc, _, _, _, _, rfl⟩ := h1
    split at hn <;> simp at hn
    subst hn
    refine ⟨rfl, rfl, ?_⟩
    have hc : w.nft.colls.get k = some col := hc
    view

theorem NftM.create_now {d r k sb} (h : createHelper c w a d r k sb = .ok w') : w'.now = w.now := by
  simp only [createHelper, nextNftId] at h
  inv_ok at h
  obtain ⟨b, w1, y, n, hb, h1, hn, rfl, rfl⟩ := h
  cases k <;> simp only [pushToColl] at h1 <;> inv_ok at h1
  · subst h1; rfl
  · obtain ⟨col, hc, _, _, _, _, rfl⟩ := h1; rfl

theorem NftM.addSecret_eq {n s} (h : addSecretHelper c w a n s = .ok w') :
    truth w' = reads c w.now (truth w) [.secretAdded n s] := by
  simp only [addSecretHelper] at h; inv_ok at h
  obtain ⟨d, b, hd, _, _, _, _, _, _, _, _, rfl⟩ := h
  view

theorem NftM.toCapsule_eq {n s} (h : toCapsuleHelper c w a n s = .ok w') :
    truth w' = reads c w.now (truth w) [.toCapsule n s] := by
  simp only [toCapsuleHelper] at h; inv_ok at h
  obtain ⟨d, b, hd, _, _, _, _, _, _, _, _, rfl⟩ := h
  view

theorem NftM.shard_none {cur s l} (h : pushShard c cur s = .ok l) : l = none ↔ lastShare c cur := by
  unfold pushShard at h
  cases cur <;> simp only at h <;> inv_ok at h
  · obtain ⟨_, rfl⟩ := h; simp [lastShare]
  · obtain ⟨_, _, _, _, _, rfl⟩ := h; simp [lastShare]

theorem NftM.seen (hc : c.Ok) (hr : Reach c w) {x} (h : call c w a x = .ok w') :
    truth w' = reads c w.now (truth w) (emit c w a x) := by
  cases x <;> simp only [call] at h <;> simp only [emit]
  case createNft => exact (create_eq h).2.2
  case burnNft n =>
    simp only [burnNft] at h; inv_ok at h
    obtain ⟨d, w1, hd, _, _, _, _, _, h1, rfl⟩ := h
    have g := ((hr.inv hc).good n).nft d hd
    have hs : w.nft.secretData.get n = none ∨ d.st.secret = true := by
      by_cases e : w.nft.secretData.get n = none
      · exact .inl e
      · exact .inr (g.secret.mpr e)
    have hk : w.nft.capsuleData.get n = none ∨ d.st.capsule = true := by
      by_cases e : w.nft.capsuleData.get n = none
      · exact .inl e
      · exact .inr (g.capsule.mpr e)
    have hx : ∃ k, w1 = { w with nft := { w.nft with colls := k } } ∧
        ∀ m, (k.get m).map (fun x => ({ x with nfts := [] } : Coll)) =
          (w.nft.colls.get m).map fun x => { x with nfts := [] } := by
      cases e : d.coll <;> rw [e] at h1 <;> simp only [dropFromColl] at h1 <;> inv_ok at h1
      · exact ⟨_, h1.symm, fun _ => rfl⟩
      · obtain ⟨col, hc, _, rfl⟩ := h1
        refine ⟨_, rfl, fun m => ?_⟩
        simp only [FMap.get_insert]
        split <;> simp_all
    obtain ⟨k, rfl, hkk⟩ := hx
    simp only [Spec.reads, List.foldl_cons, List.foldl_nil, see]
    apply View.ext <;> funext m <;>
      simp only [truth, View.put, View.at_, FMap.get_erase, hkk]
    · split
      · rw [FMap.get_erase]
      · split <;> simp_all
    · split
      · rw [FMap.get_erase]
      · split <;> simp_all
  case transferNft n r =>
    simp only [transferNft] at h; inv_ok at h
    obtain ⟨d, hd, _, _, _, _, _, _, _, _, _, rfl⟩ := h
    view
  case delegateNft n r =>
    simp only [delegateNft] at h; inv_ok at h
    obtain ⟨d, hd, _, _, _, _, _, _, rfl⟩ := h
    by_cases e : r.getD a = a <;> simp only [e, ne_eq, not_true, not_false_iff, if_true, if_false] <;> view
  case setRoyalty n r =>
    simp only [setRoyalty] at h; inv_ok at h
    obtain ⟨d, hd, _, _, _, _, _, _, _, _, rfl⟩ := h
    view
  case createColl =>
    simp only [createColl] at h; inv_ok at h
    obtain ⟨y, _, h1, rfl⟩ := h
    view
  case burnColl =>
    simp only [burnColl] at h; inv_ok at h
    obtain ⟨y, _, _, _, rfl⟩ := h
    view
  case closeColl =>
    simp only [closeColl] at h; inv_ok at h
    obtain ⟨y, _, _, rfl⟩ := h
    view
  case limitColl =>
    simp only [limitColl] at h; inv_ok at h
    obtain ⟨y, _, _, _, _, _, _, rfl⟩ := h
    view
  case addToColl =>
    simp only [addToColl] at h; inv_ok at h
    obtain ⟨y, d, _, _, _, _, _, _, _, _, rfl⟩ := h
    view
  case addSecret => exact addSecret_eq h
  case createSecret =>
    simp only [createSecret] at h; inv_ok at h
    obtain ⟨w1, _, h1, h⟩ := h
    obtain ⟨e1, _, e2⟩ := create_eq h1
    have h := addSecret_eq h
    rw [h, e2, e1]
    have hn : w1.now = w.now := create_now h1
    simp only [reads, List.foldl_cons, List.foldl_nil, Nat.add_sub_cancel, hn]
  case addSecretShard n =>
    simp only [addSecretShard] at h; inv_ok at h
    obtain ⟨s, d, l, _, hd, _, hs, hl, rfl⟩ := h
    have e := shard_none hl
    cases l with
    | none => rw [if_pos (e.mp rfl)]; view
    | some l =>
      have e' : ({ d with st := { d.st with syncSecret := true } } : NFTData) = d := by rw [← hs]
      rw [if_neg fun h => nomatch e.mpr h]
      simp only [Option.isSome, e']
      view
  case toCapsule => exact toCapsule_eq h
  case createCapsule =>
    simp only [createCapsule] at h; inv_ok at h
    obtain ⟨w1, _, h1, h⟩ := h
    obtain ⟨e1, _, e2⟩ := create_eq h1
    have h := toCapsule_eq h
    rw [h, e2, e1]
    have hn : w1.now = w.now := create_now h1
    simp only [reads, List.foldl_cons, List.foldl_nil, Nat.add_sub_cancel, hn]
  case setCapsuleData =>
    simp only [setCapsuleData] at h; inv_ok at h
    obtain ⟨d, _, _, _, _, _, _, _, _, rfl⟩ := h
    view
  case addCapsuleShard n =>
    simp only [addCapsuleShard] at h; inv_ok at h
    obtain ⟨s, d, l, _, hd, _, hs, hl, rfl⟩ := h
    have e := shard_none hl
    cases l with
    | none => rw [if_pos (e.mp rfl)]; view
    | some l =>
      have e' : ({ d with st := { d.st with syncCapsule := true } } : NFTData) = d := by rw [← hs]
      rw [if_neg fun h => nomatch e.mpr h]
      simp only [Option.isSome, e']
      view
  case notifyKey =>
    simp only [notifyKey] at h; inv_ok at h
    obtain ⟨d, _, _, _, _, _, _, _, _, _, rfl⟩ := h
    view
  case setCollData =>
    simp only [setCollData] at h; inv_ok at h
    obtain ⟨y, _, _, rfl⟩ := h
    view

theorem MktM.seen {x} (h : call c w a x = .ok w') :
    truth w' = reads c w.now (truth w) (emit w a x) := by
  cases x <;> simp only [call] at h <;> simp only [emit]
  case create =>
    simp only [create] at h; inv_ok at h
    obtain ⟨b, y, _, _, rfl⟩ := h
    view
  case setOwner =>
    simp only [setOwner] at h; inv_ok at h
    obtain ⟨d, _, hd, _, rfl⟩ := h
    view
  case setKind =>
    simp only [setKind] at h; inv_ok at h
    obtain ⟨d, hd, _, rfl⟩ := h
    view
  case setConfig m f l k o q =>
    simp only [setConfig] at h; inv_ok at h
    obtain ⟨d, hd, _, rfl⟩ := h
    have e : ∀ {α : Type} (x : Option α) (y : ConfigOp α), MktM.apply x y = configured x y := by
      intro α x y; cases y <;> rfl
    simp only [e]
    view
  case list =>
    simp only [list] at h; inv_ok at h
    obtain ⟨d, k, b, hd, _, _, _, _, _, _, _, _, hk, _, _, _, rfl⟩ := h
    simp only [hk, Option.bind_some]
    view
  case unlist =>
    simp only [unlist] at h; inv_ok at h
    obtain ⟨d, k, hd, _, _, rfl⟩ := h
    view
  case buy =>
    simp only [buy] at h; inv_ok at h
    obtain ⟨d, s, k, b1, b2, b3, hd, hs, _, _, _, _, _, _, _, _, _, rfl⟩ := h
    simp only [hd, hs]
    view

theorem AucM.get_addClaims (m : FMap AccountId Balance) (l : List (AccountId × Balance)) (z : AccountId) :
    ((addClaims m l).get z).getD 0 = (m.get z).getD 0 + ((l.filter fun x => x.1 = z).map (·.2)).sum := by
  unfold addClaims
  induction l generalizing m with
  | nil => simp
  | cons y t ih =>
    rw [List.foldl_cons, ih, addClaim, FMap.get_insert]
    by_cases e : z = y.1
    · subst e; simp [Nat.add_assoc]
    · have e' : ¬ y.1 = z := fun h => e h.symm
      simp [e, e']

theorem AucM.losers {x : Auction} (h : x.bids.Pairwise (·.2 < ·.2)) {top} (ht : x.bids.getLast? = some top) :
    x.bids.filter (fun y => ¬ (some y.1 = some top.1 ∧ some y.2 = some top.2)) = x.bids.dropLast := by
  obtain ⟨i, hi⟩ := List.getLast?_eq_some_iff.1 ht
  rw [hi] at h ⊢
  rw [List.filter_append, List.dropLast_concat, List.filter_eq_self.mpr]
  · simp
  · intro y hy
    have := (List.pairwise_append.1 h).2.2 y hy top (by simp)
    simp only [Option.some.injEq, decide_not, Bool.not_eq_true', decide_eq_false_iff_not]
    omega

theorem AucM.all_lose {x : Auction} (h : x.bids.Pairwise (·.2 < ·.2)) {p : Balance}
    (ht : ∀ y ∈ x.bids.getLast?, y.2 < p) :
    x.bids.filter (fun y => ¬ (some y.1 = some a ∧ some y.2 = some p)) = x.bids := by
  rw [List.filter_eq_self]
  intro y hy
  obtain ⟨top, hl⟩ : ∃ top, x.bids.getLast? = some top := by
    cases e : x.bids.getLast? with
    | none => rw [List.getLast?_eq_none_iff] at e; simp [e] at hy
    | some t => exact ⟨t, rfl⟩
  have h1 := ht top hl
  simp only [Option.some.injEq, decide_not, Bool.not_eq_true', decide_eq_false_iff_not]
  rcases last_max h hl hy with rfl | h2 <;> omega

theorem AucM.seen (hc : c.Ok) (hr : Reach c w) {x} (h : call c w a x = .ok w') :
    truth w' = reads c w.now (truth w) (emit c w a x) := by
  have hi := hr.auc hc
  cases call_act h with
  | create h1 h2 h3 h4 h5 h6 hd h7 h8 hk h9 h10 hq =>
    simp only [emit]; view
  | cancel hd hx h1 h2 =>
    simp only [emit, reads, List.foldl_cons, List.foldl_nil, see]
    apply View.ext <;> funext m <;>
      simp only [truth, View.flag, View.on, View.put, View.at_, View.refund, FMap.get_insert, FMap.get_erase, hx,
        get_addClaims, Option.elim]
    split <;> simp_all
  | @end_ n d x top b hd hx h1 h2 h3 h4 =>
    simp only [emit, hx, h3, Option.bind_some, soldEvent, reads, List.foldl_cons, List.foldl_nil, see]
    apply View.ext <;> funext m <;>
      simp only [truth, View.flag, View.give, View.on, View.put, View.at_, View.refund, FMap.get_insert, FMap.get_erase,
        hx, get_addClaims, Option.elim, losers (hi.ok n x hx).ladder h3]
    split <;> simp_all
  | @addBid n v x b dr l q hx h1 h2 h3 h4 h5 h6 h7 =>
    have hl : (extend c { x with bids := l } w.now).1 = { x with
        bids := l, fin := x.fin + (c.grace - (x.fin - w.now))
        extended := x.extended || decide (x.fin - w.now < c.grace) } := by
      unfold extend
      by_cases e : x.fin - w.now < c.grace
      · simp [e]
      · simp [e, Nat.sub_eq_zero_of_le (Nat.le_of_not_lt e)]
    have e1 := removeBid_filter (a := a) (hi.ok n x hx).one
    have hn : ((x.bids.filter fun y => decide (y.1 ≠ a)).map Prod.fst).Nodup :=
      (hi.ok n x hx).one.sublist (List.Sublist.map _ List.filter_sublist)
    simp only [emit, droppedEvent, hx, h6]
    rw [hl]
    rw [e1] at h6
    unfold insertBid at h6
    split at h6
    · split at h6
      · simp at h6
      · rename_i y t ht
        simp only [Except.ok.injEq, Prod.mk.injEq] at h6
        obtain ⟨rfl, rfl⟩ := h6
        rw [ht, List.map_cons, List.nodup_cons] at hn
        have e2 : (x.bids.filter fun z => decide (z.1 ≠ y.1)).filter (fun z => decide (z.1 ≠ a)) = t := by
          rw [List.filter_comm, ht, List.filter_cons_of_neg (by simp), List.filter_eq_self]
          intro z hz
          simp only [ne_eq, decide_not, Bool.not_eq_true', decide_eq_false_iff_not]
          intro e
          exact hn.1 (e ▸ List.mem_map_of_mem hz)
        simp only [List.cons_append, List.nil_append, reads, List.foldl_cons, List.foldl_nil, see]
        apply View.ext <;> funext m <;>
          simp only [truth, View.on, View.at_, View.refund, FMap.get_insert, addClaimOpt]
        · split
          · rename_i e
            simp only [e, hx, Option.map_some, withBid, e2]
          · rfl
        · simp only [addClaim, FMap.get_insert]
          by_cases e : m = y.1
          · simp [e]
          · have e' : ¬ y.1 = m := fun h => e h.symm
            simp [e, e']
    · simp only [Except.ok.injEq, Prod.mk.injEq] at h6
      obtain ⟨rfl, rfl⟩ := h6
      simp only [List.nil_append, reads, List.foldl_cons, List.foldl_nil, see]
      apply View.ext <;> funext m <;>
        simp only [truth, View.on, View.at_, FMap.get_insert, addClaimOpt]
      split
      · rename_i e
        simp only [e, hx, Option.map_some, withBid]
      · rfl
  | @removeBid n x v b hx h1 h2 h3 =>
    simp only [emit, removeBid_filter (hi.ok n x hx).one]
    view
  | @buyItNow n p d x b hd hx h1 h2 h3 h4 h5 =>
    simp only [emit, soldEvent, reads, List.foldl_cons, List.foldl_nil, see]
    apply View.ext <;> funext m <;>
      simp only [truth, View.flag, View.give, View.on, View.put, View.at_, View.refund, FMap.get_insert, FMap.get_erase,
        hx, get_addClaims, Option.elim, all_lose (hi.ok n x hx).ladder h4]
    split <;> simp_all
  | claim h1 h2 =>
    simp only [emit]
    view

/-- every auction's bids grow -/
def AucM.Ladders (w : World) : Prop := ∀ n x, w.auc.auctions.get n = some x → x.bids.Pairwise (·.2 < ·.2)

theorem AucM.settle_seen (hi : Ladders w) (n : NFTId) :
    truth (settleOne c w n).1 = reads c w.now (truth w) (settleEmit c w n) ∧ Ladders (settleOne c w n).1 ∧
      (settleOne c w n).1.now = w.now := by
  unfold settleOne settleEmit
  cases hx : w.auc.auctions.get n with
  | none => exact ⟨rfl, hi, rfl⟩
  | some x =>
    cases hd : w.nfts.get n with
    | none => exact ⟨rfl, hi, rfl⟩
    | some d =>
      simp only
      cases ht : x.bids.getLast? with
      | none =>
        rw [List.getLast?_eq_none_iff] at ht
        refine ⟨?_, fun m y hy => ?_, rfl⟩
        · simp only [reads, List.foldl_cons, List.foldl_nil, see]
          apply View.ext <;> funext m <;>
            simp only [truth, View.flag, View.give, View.on, View.put, View.at_, View.refund, FMap.get_insert,
              FMap.get_erase, hx, Option.elim, ht, World.putNft, World.putBal, World.ev, List.filter_nil, List.map_nil,
              List.sum_nil, Nat.add_zero]
          split <;> simp_all
        · simp only [World.putNft, World.ev, FMap.get_erase] at hy
          split at hy
          · cases hy
          · exact hi m y hy
      | some top =>
        rcases hp : payForNft c w n c.aucPot top.2 d x with ⟨b, _ | _⟩
        · simp only [hp]; exact ⟨rfl, hi, rfl⟩
        · simp only [hp]
          refine ⟨?_, fun m y hy => ?_, rfl⟩
          · simp only [soldEvent, reads, List.foldl_cons, List.foldl_nil, see]
            apply View.ext <;> funext m <;>
              simp only [truth, View.flag, View.give, View.on, View.put, View.at_, View.refund, FMap.get_insert,
                FMap.get_erase, hx, get_addClaims, Option.elim, losers (hi n x hx) ht, World.putNft,
                World.putBal, World.ev]
            split <;> simp_all
          · simp only [World.putNft, World.putBal, World.ev, FMap.get_erase] at hy
            split at hy
            · cases hy
            · exact hi m y hy

theorem AucM.loop_seen (hi : Ladders w) (q : Queue) (k : Nat) :
    truth (hookLoop c w q k).1 = reads c w.now (truth w) (hookEmit c w q k) := by
  induction q generalizing w k with
  | nil => rfl
  | cons x t ih =>
    obtain ⟨n, e⟩ := x
    obtain ⟨h1, h2, h3⟩ := settle_seen (c := c) hi n
    simp only [hookLoop, hookEmit]
    split
    · split
      · split
        · simpa using h1
        · rw [ih h2, h3, h1]; exact (List.foldl_append ..).symm
      · rw [ih h2, h3, h1]; exact (List.foldl_append ..).symm
    · rfl

theorem AucM.hook_seen (hc : c.Ok) (hr : Reach c w) :
    truth (hook c w) = reads c w.now (truth w) (hookEmit c w w.auc.deadlines 0) := by
  rw [← loop_seen fun n x hx => ((hr.auc hc).ok n x hx).ladder]
  rfl

theorem TrM.transmit_seen {n} (h : transmit w n = .ok w') :
    truth w' = see c.rentPot c.grace w.now (truth w) (.transmitted n) ∧ w'.now = w.now := by
  simp only [transmit] at h; inv_ok at h
  obtain ⟨t, d, ht, hd, rfl⟩ := h
  refine ⟨?_, rfl⟩
  have e : (truth w).transmission n = some t := ht
  simp only [see, e]
  apply View.ext <;> funext m <;>
    simp only [truth, View.flag, View.give, View.on, View.put, View.at_, FMap.get_insert, FMap.get_erase, World.putNft]
  split <;> simp_all

theorem TrM.one_seen (n : NFTId) :
    truth (hookOne w n).1 = see c.rentPot c.grace w.now (truth w) (oneEvent w n) ∧ (hookOne w n).1.now = w.now := by
  unfold hookOne oneEvent
  cases h : transmit w n with
  | error => exact ⟨rfl, rfl⟩
  | ok w1 => exact transmit_seen (w' := w1) h

theorem TrM.loop_seen (q : Queue) (k : Nat) :
    truth (hookLoop c w q k).1 = reads c w.now (truth w) (hookEmit c w q k) := by
  induction q generalizing w k with
  | nil => rfl
  | cons x t ih =>
    obtain ⟨n, e⟩ := x
    obtain ⟨h1, h2⟩ := one_seen (c := c) (w := w) n
    simp only [hookLoop, hookEmit]
    by_cases he : e ≤ w.now
    · rw [if_pos he, if_pos he]
      generalize (if (hookOne w n).2 = true then k + 1 else k) = k'
      by_cases hk : c.trActions ≤ k'
      · rw [if_pos hk, if_pos hk]
        exact h1
      · rw [if_neg hk, if_neg hk, ih, h2, h1]
        rfl
    · rw [if_neg he, if_neg he]; rfl

theorem TrM.hook_seen : truth (hook c w) = reads c w.now (truth w) (hookEmit c w w.tr.queue 0) := by
  rw [← loop_seen]
  unfold hook
  simp only
  split <;> rfl

theorem TrM.seen (hc : c.Ok) (hr : Reach c w) {x} (h : call c w a x = .ok w') :
    truth w' = reads c w.now (truth w) (emit w a x) := by
  cases x <;> simp only [call] at h <;> simp only [emit]
  case set =>
    simp only [set] at h; inv_ok at h
    obtain ⟨d, q, b, _, hd, _, _, _, _, _, _, _, _, _, _, _, _, _, _, _, _, _, _, rfl⟩ := h
    view
  case remove n =>
    simp only [remove] at h; inv_ok at h
    obtain ⟨d, t, hd, _, _, ht, _, rfl⟩ := h
    have hn : consentData t.protocol = none → (w.tr.consents.get n).getD [] = [] := by
      intro e
      cases e' : w.tr.consents.get n with
      | none => rfl
      | some l =>
        obtain ⟨x, y, hx, hy, _⟩ := (hr.inv hc).tr.cons n l e'
        rw [ht] at hx; cases hx
        rw [e] at hy; cases hy
    simp only [Spec.reads, List.foldl_cons, List.foldl_nil, see]
    cases e : t.protocol <;> simp only [kind, cleanup] <;> rw [e] at hn <;>
      simp only [consentData, reduceCtorEq, false_imp_iff, true_imp_iff] at hn <;>
      apply View.ext <;> funext m <;>
      simp only [truth, View.flag, View.on, View.put, View.at_, FMap.get_insert, FMap.get_erase, World.putNft] <;>
      split <;> simp_all
  case resetTimer =>
    simp only [resetTimer] at h; inv_ok at h
    obtain ⟨d, t, q, _, _, _, ht, _, _, _, _, rfl⟩ := h
    view
  case addConsent n =>
    simp only [addConsent] at h; inv_ok at h
    obtain ⟨d, t, x, hd, _, ht, hx, _, _, _, _, h⟩ := h
    have er : reached w n = decide (x.2 ≤ ((w.tr.consents.get n).getD []).length + 1) := by
      simp only [reached, ht, Option.bind_some, hx]
    rw [er]
    unfold consentEffect at h
    split at h
    · rename_i hl
      inv_ok at h; subst h
      simp only [List.length_append, List.length_singleton] at hl
      rw [decide_eq_false (by omega)]
      simp only [Bool.false_eq_true, if_false]
      view
    · rename_i hl
      simp only [List.length_append, List.length_singleton] at hl
      rw [decide_eq_true (by omega)]
      simp only [if_true]
      have key : ∀ w1, transmit { w with tr := { w.tr with consents := w.tr.consents.erase n } } n = .ok w1 →
          truth w1 = reads c w.now (truth w) [.consentAdded n a, .thresholdReached n, .transmitted n] := by
        intro w1 h1
        rw [(transmit_seen (c := c) h1).1]
        simp only [reads, List.foldl_cons, List.foldl_nil]
        congr 1
        simp only [see]
        apply View.ext <;> funext m <;>
          simp only [truth, View.put, View.at_, FMap.get_erase]
        split <;> rfl
      cases e : endBlock t.protocol with
      | none =>
        have ea : atOnce w n = true := by simp only [atOnce, ht, Option.bind_some, e]
        rw [e] at h; simp only at h; inv_ok at h
        obtain ⟨w1, h1, rfl⟩ := h
        rw [ea]
        exact key w1 h1
      | some b =>
        have ea : atOnce w n = decide (b ≤ w.now) := by simp only [atOnce, ht, Option.bind_some, e]
        rw [e] at h; simp only at h
        rw [ea]
        split at h
        · rename_i hb
          inv_ok at h
          obtain ⟨w1, h1, rfl⟩ := h
          rw [decide_eq_true hb]
          exact key w1 h1
        · rename_i hb
          inv_ok at h
          obtain ⟨q, h1, rfl⟩ := h
          rw [decide_eq_false hb]
          simp only [Bool.false_eq_true, if_false]
          view

theorem Spec.give_eq (v : View) (m : Option NFTId) (x : AccountId) :
    v.give m x = { v with nft := fun i => if m = some i then (v.nft i).map (fun d => { d with owner := x }) else v.nft i } := by
  cases m with
  | none => simp [View.give]
  | some m =>
    simp only [View.give, View.on, View.at_, Option.some.injEq]
    congr 1
    funext i
    unfold View.at_
    by_cases e : i = m
    · simp [e]
    · have e' : ¬ m = i := fun h => e h.symm
      simp [e, e']

theorem Spec.depositNft_eq (f : CancelFee) : depositNft f = RentM.feeNft f := by cases f <;> rfl
theorem Spec.rentNft_eq (f : RentFee) : Spec.rentNft f = RentM.rentNft f := by cases f <;> rfl

theorem RentM.finish_see {n} (h : handleFinished c n w = (w', .ok ())) :
    ∃ k, w.rent.contracts.get n = some k ∧ w'.now = w.now ∧
      truth w' = noContract (settled (truth w) n k) n := by
  obtain ⟨k, d, b1, b2, hk, hd, _, _, rfl⟩ := finished_ok h
  refine ⟨k, hk, rfl, ?_⟩
  unfold settled renteeNft
  simp only [give_eq, depositNft_eq]
  cases k.rentee with
  | none =>
    simp only [noContract]
    apply View.ext <;> funext m <;>
      simp only [truth, View.flag, View.on, View.put, View.at_, FMap.get_insert, FMap.get_erase, get_cho,
        Option.bind_none, reduceCtorEq, if_false, Option.filter_eq_some_iff]
    by_cases e : m = n <;> simp_all
  | some r =>
    simp only [noContract]
    apply View.ext <;> funext m <;>
      simp only [truth, View.flag, View.on, View.put, View.at_, FMap.get_insert, FMap.get_erase, get_cho,
        Option.bind_some, Option.getD_some, Option.filter_eq_some_iff]
    by_cases e : m = n <;> simp_all

theorem RentM.start_seen {n k r} (hk : w.rent.contracts.get n = some k) (h : startContract c w n k r = .ok w') :
    truth w' = reads c w.now (truth w) [.contractStarted n r] := by
  obtain ⟨w1, q, h1, h2, rfl⟩ := startContract_ok h
  obtain ⟨b1, b2, _, _, _, _, rfl⟩ := takeFees_ok h1
  have e : (truth w).contract n = some k := hk
  simp only [reads, List.foldl_cons, List.foldl_nil, see, e, give_eq, depositNft_eq, rentNft_eq]
  apply View.ext <;> funext m <;>
    simp only [truth, View.put, View.at_, FMap.get_insert, FMap.get_erase, get_cho]
  split <;> rfl

theorem RentM.seen {x} (h : call c w a x = .ok w') : truth w' = reads c w.now (truth w) (emit c a x) := by
  cases x <;> simp only [call] at h <;> simp only [emit]
  case create n du acc rv f x y =>
    simp only [create] at h; inv_ok at h
    obtain ⟨d, b, w1, q, _, hd, _, _, _, _, _, _, _, _, _, _, _, _, _, hb, h1, hq, rfl⟩ := h
    have e : ∃ g, w1 = { w with bal := b, nfts := g } ∧ ∀ m, m ≠ n →
        g.get m = if RentM.feeNft x = some m then (w.nfts.get m).map (fun d => { d with owner := c.rentPot })
          else w.nfts.get m := by
      cases e : feeNft x with
      | none =>
        rw [e] at h1; simp only [depositRenterNft] at h1; inv_ok at h1; subst h1
        exact ⟨_, rfl, fun m hm => by simp⟩
      | some id =>
        rw [e] at h1; simp only [depositRenterNft] at h1; inv_ok at h1
        obtain ⟨z, hz, _, _, rfl⟩ := h1
        refine ⟨_, rfl, fun m hm => ?_⟩
        have hz : w.nfts.get _ = some z := hz
        simp only [World.putBal, FMap.get_insert, Option.some.injEq]
        by_cases e' : m = id
        · subst e'; simp [hz]
        · have e2 : ¬ id = m := fun h => e' h.symm
          simp [e', e2]
    obtain ⟨g, rfl, hg⟩ := e
    simp only [reads, List.foldl_cons, List.foldl_nil, see, give_eq, depositNft_eq]
    apply View.ext <;> funext m <;>
      simp only [truth, View.flag, View.on, View.put, View.at_, FMap.get_insert, World.putNft, World.ev]
    by_cases e : m = n
    · simp_all [Option.filter_eq_some_iff]
    · simp only [e, if_false, hg m e, Option.filter_eq_some_iff, ne_eq, not_false_iff, decide_true, and_true]
  case cancel n =>
    simp only [cancel] at h; inv_ok at h
    obtain ⟨k, hk, _, _, h⟩ := h
    obtain ⟨k', hk', _, h⟩ := finish_see (ext_ok h)
    have hk' : w.rent.contracts.get n = some k' := hk'
    rw [hk] at hk'; cases hk'
    have e : (truth w).contract n = some k := hk
    simp only [reads, List.foldl_cons, List.foldl_nil, see, e, h, settled, give_eq, noContract]
    cases k.rentee <;> simp only <;> apply View.ext <;> first | rfl | skip
    all_goals
      funext m
      simp only [truth, View.flag, View.put, View.at_, FMap.get_erase]
      split <;> rfl
  case revoke n =>
    obtain ⟨k, r, d, b0, b1, b2, hk, hr, hp, _, hd, _, _, _, _, rfl⟩ := revoke_ok h
    have e : (truth w).contract n = some k := hk
    simp only [reads, List.foldl_cons, List.foldl_nil, see, e, hr, Option.getD_some, give_eq, depositNft_eq, noContract]
    by_cases ea : k.renter = a <;> simp only [ea, if_true, if_false] at hd ⊢ <;>
    apply View.ext <;> funext m <;>
      simp only [truth, View.flag, View.on, View.put, View.at_, FMap.get_insert, FMap.get_erase, get_cho]
    · clear h
      simp only [get_cho] at hd
      by_cases e1 : m = n <;> by_cases e2 : feeNft k.renterFee = some m <;>
        by_cases e3 : feeNft k.renteeFee = some m <;> cases e4 : w.nfts.get m <;> simp_all <;> simp [← hd]
    · cases k.duration <;> rfl
    · clear h
      simp only [get_cho] at hd
      by_cases e1 : m = n <;> by_cases e2 : feeNft k.renterFee = some m <;>
        by_cases e3 : feeNft k.renteeFee = some m <;> cases e4 : w.nfts.get m <;> simp_all <;> simp [← hd]
    · cases k.duration <;> rfl
  case rent =>
    simp only [rent] at h; inv_ok at h
    obtain ⟨k, hk, _, _, _, _, _, h⟩ := h
    exact start_seen hk h
  case makeOffer =>
    simp only [makeOffer] at h; inv_ok at h
    obtain ⟨k, _, hk, _, _, _, _, _, _, _, _, _, _, _, rfl⟩ := h
    view
  case acceptOffer =>
    simp only [acceptOffer] at h; inv_ok at h
    obtain ⟨k, l, hk, _, _, _, h⟩ := h
    exact start_seen hk h
  case retractOffer =>
    simp only [retractOffer] at h; inv_ok at h
    obtain ⟨l, hl, _, rfl⟩ := h
    view
  case changeTerms n f p m ch =>
    simp only [changeTerms] at h; inv_ok at h
    obtain ⟨k, hk, _, _, _, _, _, _, rfl⟩ := h
    have e : (truth w).contract n = some k := hk
    simp only [reads, List.foldl_cons, List.foldl_nil, see, e, Option.any]
    apply View.ext <;> funext i <;>
      simp only [truth, View.on, View.put, View.at_, FMap.get_insert]
    · split <;> simp_all
    · cases k.rentee <;> simp [FMap.get_erase]
      split <;> simp_all
  case acceptTerms =>
    simp only [acceptTerms] at h; inv_ok at h
    obtain ⟨k, s, hk, hs, _, _, _, _, _, _, rfl⟩ := h
    split at hs <;> simp at hs
    rename_i s' e
    subst hs
    view

theorem RentM.finish_here {F S A n k} (h : RInv c (setQ w F S A)) (hb : BalInv c w.bal)
    (hk : w.rent.contracts.get n = some k) :
    truth (handleFinished c n w).1 = noContract (settled (truth w) n k) n := by
  obtain ⟨w1, h1⟩ := h.finish_succeeds hb hk
  rw [handleFinished_comm] at h1
  simp only [Prod.mk.injEq] at h1
  obtain ⟨k', hk', _, e⟩ := finish_see (c := c) (w := w) (w' := (handleFinished c n w).1) (n := n) (by rw [← h1.2])
  rw [hk] at hk'; cases hk'
  exact e

theorem RentM.loopF_seen (q : Queue) (w : World) (i : Nat) {S A} (h : RInv c (setQ w q S A)) (hb : BalInv c w.bal) :
    truth (finishLoop c w q i).1 = reads c w.now (truth w) (finishEmit c .contractEnded w q i) := by
  induction q generalizing w i with
  | nil => rfl
  | cons x t ih =>
    obtain ⟨n, b⟩ := x
    obtain ⟨k, _, _, hk, _⟩ := h.q.inF n b (List.mem_cons_self ..)
    have hk : w.rent.contracts.get n = some k := hk
    have e := finish_here h hb hk
    have ek : (truth w).contract n = some k := hk
    have h1 := (popF (off := fun _ _ => True) h hb).1
    have hb1 := handleFinished_bal w n hb
    simp only [finishLoop, finishEmit]
    split
    · split
      · simp only [reads, List.foldl_cons, List.foldl_nil, see, ek]; exact e
      · rw [ih _ _ h1 hb1, handleFinished_now, e]
        simp only [reads, List.foldl_cons, see, ek]
    · rfl

theorem RentM.loopA_seen (q : Queue) (w : World) (i : Nat) {F S} (h : RInv c (setQ w F S q)) (hb : BalInv c w.bal) :
    truth (finishLoop c w q i).1 = reads c w.now (truth w) (finishEmit c .contractExpired w q i) := by
  induction q generalizing w i with
  | nil => rfl
  | cons x t ih =>
    obtain ⟨n, b⟩ := x
    obtain ⟨k, hk, _⟩ := h.q.inA n b (List.mem_cons_self ..)
    have hk : w.rent.contracts.get n = some k := hk
    have e := finish_here h hb hk
    have ek : (truth w).contract n = some k := hk
    have h1 := (popA (off := fun _ _ => True) h hb).1
    have hb1 := handleFinished_bal w n hb
    simp only [finishLoop, finishEmit]
    split
    · split
      · simp only [reads, List.foldl_cons, List.foldl_nil, see, ek]; exact e
      · rw [ih _ _ h1 hb1, handleFinished_now, e]
        simp only [reads, List.foldl_cons, see, ek]
    · rfl

theorem RentM.sub_seen {n b t F A} (h : RInv c (setQ w F ((n, b) :: t) A)) (hb : BalInv c w.bal) :
    truth (subOne c w n t).1 = see c.rentPot c.grace w.now (truth w) (subEvent c w n) := by
  obtain ⟨k, _, _, hk, _⟩ := h.q.inS n b (List.mem_cons_self ..)
  have hk : w.rent.contracts.get n = some k := hk
  have ek : (truth w).contract n = some k := hk
  unfold subOne subEvent
  rcases e : handleSub c w n with ⟨w1, _ | b1⟩
  · rw [handleSub_none e]
    simp only [Option.isSome, Bool.false_eq_true, if_false, see, ek]
    exact finish_here h hb hk
  · obtain ⟨k, r, fee, bal, hk, hr, hf, ht, he, hbl, rfl, rfl⟩ := handleSub_some e
    rfl

theorem RentM.loopS_seen (fuel : Nat) (w : World) (q : Queue) (i : Nat) {F A} (h : RInv c (setQ w F q A))
    (hb : BalInv c w.bal) :
    truth (subLoop c w q i fuel).1 = reads c w.now (truth w) (subEmit c w q i fuel) := by
  induction fuel generalizing w q i with
  | zero => rfl
  | succ f ih =>
    unfold subLoop subEmit
    cases q with
    | nil => rfl
    | cons x t =>
      obtain ⟨n, b⟩ := x
      obtain ⟨h1, h2, h3, _⟩ := stepS (off := fun _ _ => True) h hb
      have e := sub_seen h hb
      dsimp only
      split
      · split
        · exact e
        · rw [ih _ _ _ h1 h2, h3, e]; rfl
      · rfl

theorem RentM.hook_seen (h : RInv c w) (hb : BalInv c w.bal) :
    truth (hook c w) = reads c w.now (truth w) (hookEmit c w) := by
  have he := hook_eq (c := c) w
  dsimp only at he
  rw [he]
  have f0 := loopF_seen w.rent.fixedQ w 0 (S := w.rent.subQ) (A := w.rent.availQ) h hb
  obtain ⟨f1, f2⟩ := loopF (off := fun _ _ => True) w.rent.fixedQ w 0 (S := w.rent.subQ) (A := w.rent.availQ) h hb
  have fb := hb.pays (finishLoop_pays w.rent.fixedQ w 0)
  have fn := finishLoop_now (c := c) w.rent.fixedQ w 0
  have s0 := loopS_seen (max 1 (c.rentActions - (finishLoop c w w.rent.fixedQ 0).2.2)) _ w.rent.subQ
    (finishLoop c w w.rent.fixedQ 0).2.2 f1 fb
  obtain ⟨s1, s2, s3, s4⟩ := loopS (off := fun _ _ => True)
    (max 1 (c.rentActions - (finishLoop c w w.rent.fixedQ 0).2.2)) _ w.rent.subQ
    (finishLoop c w w.rent.fixedQ 0).2.2 f1 fb
  have a0 := loopA_seen w.rent.availQ _
    (subLoop c (finishLoop c w w.rent.fixedQ 0).1 w.rent.subQ (finishLoop c w w.rent.fixedQ 0).2.2
      (max 1 (c.rentActions - (finishLoop c w w.rent.fixedQ 0).2.2))).2.2 s1 s2
  rw [s3, fn, s0, fn, f0] at a0
  simp only [hookEmit, reads, List.foldl_append]
  exact a0

theorem Quiet.seen (h : Quiet w w') : truth w' = truth w := by
  obtain ⟨a1, a2, a3, a4, a5, a6⟩ := h
  unfold truth
  rw [a1, a2, a3, a4, a5, a6]

theorem rootEmit_seen (x : RootCall) (v : View) (now : Block) : reads c now v (rootEmit x) = v := by
  cases x <;> rfl

theorem callEmit_seen (x : Call) : ∀ (o : Origin) (w : World) (v : View) (now : Block), (∀ a, o ≠ .signed a) →
    reads c now v (callEmit c w x o) = v := by
  induction x with
  | mandate y ih =>
    intro o w v now ho
    cases o with
    | signed a => exact absurd rfl (ho a)
    | root =>
      simp only [callEmit]
      split
      · exact ih .root w v now (by simp)
      · rfl
    | ext =>
      simp only [callEmit]
      split
      · exact ih .root w v now (by simp)
      · rfl
  | root y =>
    intro o w v now ho
    cases o with
    | signed a => exact absurd rfl (ho a)
    | root => exact rootEmit_seen y v now
    | ext => rfl
  | _ =>
    intro o w v now ho
    cases o with
    | signed a => exact absurd rfl (ho a)
    | root => rfl
    | ext => rfl

/-- One operation and its events. -/
theorem step_seen (hc : c.Ok) (hr : Reach c w) (o : Op) (ho : o.Ok c) :
    truth (step c w o) = reads c w.now (truth w) (emit c w o) := by
  cases o <;> simp only [step, emit]
  case call o x =>
    cases h : dispatch c x o w with
    | error e => rfl
    | ok w' =>
      show truth w' = _
      simp only
      cases o with
      | signed a =>
        cases x <;> simp only [dispatch, signedCall] at h <;> simp only [callEmit, signedEmit]
        case nft x => exact NftM.seen hc hr h
        case mkt x => exact MktM.seen h
        case auc x => exact AucM.seen hc hr h
        case rent x => exact RentM.seen h
        case tr x => exact TrM.seen hc hr h
        case tee x => exact (TeeM.call_quiet h).seen
        case br x => exact (BrM.call_quiet h).seen
        case bal d v l =>
          cases hb : w.bal.transfer c.ed a d v l with
          | error e => simp [hb, Except.map] at h
          | ok b => simp [hb, Except.map] at h; subst h; rfl
        all_goals simp at h
      | root =>
        rw [callEmit_seen x _ _ _ _ (by simp)]
        exact (dispatch_quiet x _ w w' (by simp) h).1.seen
      | ext =>
        rw [callEmit_seen x _ _ _ _ (by simp)]
        exact (dispatch_quiet x _ w w' (by simp) h).1.seen
  case hookAuc => exact AucM.hook_seen hc hr
  case hookRent => exact RentM.hook_seen (hr.inv hc).rent hr.micro.balInv
  case hookTr => exact TrM.hook_seen
  case hookTee =>
    have e := TeeM.hook_frame (c := c) w
    exact Quiet.seen (by constructor <;> rw [e])
  case tick => rfl
  case era e => split <;> rfl
  case txFee p f t au =>
    cases h : RewM.txFee c w p f t au with
    | error e => rfl
    | ok w' => exact (RewM.txFee_quiet h).seen
  case eraPayout => rfl
  case mint a v => rfl
  case lock a v => rfl

theorem Spec.books_append (pot : AccountId) (grace : Block) (v : View) (l l' : List (Block × Event)) :
    books pot grace v (l ++ l') = books pot grace (books pot grace v l) l' := by
  induction l generalizing v with
  | nil => rfl
  | cons e t ih => exact ih _

theorem Spec.books_map (c : Cfg) (now : Block) (v : View) (l : List Event) :
    books c.rentPot c.grace v (l.map fun e => (now, e)) = reads c now v l := by
  induction l generalizing v with
  | nil => rfl
  | cons e t ih => exact ih _

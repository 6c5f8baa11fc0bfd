import Verif.Props.BidderSpec
import Verif.Proofs.Cash
/-
What a bidder hands over, gets back and spends, event by event.
-/
open Spec

variable {c : Cfg} {w w' : World} {a : AccountId}

theorem Spec.total_append (f : Block → View → Event → Balance) (v : View) (l l' : List (Block × Event)) :
    total c f v (l ++ l') = total c f v l + total c f (books c.rentPot c.grace v l) l' := by
  induction l generalizing v with
  | nil => simp [total, books]
  | cons e l ih => obtain ⟨b, e⟩ := e; simp only [List.cons_append, total, ih, books]; omega

theorem Spec.total_zero {f : Block → View → Event → Balance} {now : Block} {l : List Event} (h : ∀ e ∈ l, ∀ v, f now v e = 0) (v : View) :
    total c f v (l.map fun e => (now, e)) = 0 := by
  induction l generalizing v with
  | nil => rfl
  | cons e l ih =>
    simp only [List.map_cons, total, h e (by simp), ih fun x hx => h x (by simp [hx])]

/-- an event that is not about bids -/
def Spec.NoBid : Event → Bool
  | .bidAdded .. | .bidRemoved .. | .balanceClaimed .. | .auctionCompleted .. => false
  | _ => true

/-- an account's stake from `w` to `w'`, by the events `l` -/
def Spec.Tallied (c : Cfg) (y : AccountId) (w w' : World) (l : List (Block × Event)) : Prop :=
  stakeOf w y + total c (handsOver y) (truth w) l =
    stakeOf w' y + total c (getsBack y) (truth w) l + total c (spends y) (truth w) l

theorem Spec.Tallied.none {y : AccountId} {l : List Event} (h : ∀ e ∈ l, NoBid e = true) (hs : w'.auc = w.auc) (now : Block) :
    Tallied c y w w' (l.map fun e => (now, e)) := by
  have z : ∀ e, NoBid e = true → ∀ v, handsOver y now v e = 0 ∧ getsBack y now v e = 0 ∧ spends y now v e = 0 := by
    intro e he v
    cases e <;> first | exact ⟨rfl, rfl, rfl⟩ | simp [NoBid] at he
  unfold Tallied
  rw [total_zero fun e he v => (z e (h e he) v).1, total_zero fun e he v => (z e (h e he) v).2.1,
    total_zero fun e he v => (z e (h e he) v).2.2]
  simp only [stakeOf, hs]

namespace AucM

theorem pop_stake {n : NFTId} {x : Auction} {top : AccountId × Balance} {y : AccountId} (hx : w.auc.auctions.get n = some x)
    (ht : x.bids.getLast? = some top) (h1 : w'.auc.claims = addClaims w.auc.claims x.bids.dropLast)
    (h2 : w'.auc.auctions = w.auc.auctions.erase n) :
    stakeOf w y = stakeOf w' y + if top.1 = y then top.2 else 0 := by
  rw [Spec.stakeOf_eq, Spec.stakeOf_eq]
  have e1 := auctions_erase (P := fun z => decide (z = y)) hx
  have e2 := wt_last (P := fun z => decide (z = y)) ht
  simp only [AucM.stake, h1, h2, claims_add]
  simp only [wt1, decide_eq_true_eq] at *
  omega

theorem tallied (hc : c.Ok) (hr : Reach c w) {x} (h : call c w a x = .ok w') (y : AccountId) :
    Tallied c y w w' ((emit c w a x).map fun e => (w.now, e)) := by
  have hi := hr.auc hc
  have hg := (hr.inv hc).good
  have hact := call_act h
  have hst := hact.stake (P := fun z => decide (z = y)) hg
  unfold Tallied
  simp only [Spec.stakeOf_eq]
  generalize AucM.stake (fun z => decide (z = y)) w'.auc = S at *
  cases hact with
  | create => simpa [emit, total, handsOver, getsBack, spends] using hst.symm
  | cancel => simpa [emit, total, handsOver, getsBack, spends] using hst.symm
  | @end_ n d x top b hd hx h1 h2 h3 h4 =>
    obtain ⟨x', t, e1, e2, e3⟩ := hst
    rw [hx] at e1; simp at e1; subst e1
    rw [h3] at e2; simp at e2; subst e2
    have e2 : (truth w).auction n = some x := hx
    simp only [emit, hx, h3, Option.bind_some, soldEvent, List.map_cons, List.map_nil, total, handsOver, getsBack, spends,
      bidsOn, e2, Option.elim, Prod.mk.eta, List.mem_of_getLast? h3, and_true]
    simp only [wt1, decide_eq_true_eq] at e3
    omega
  | @addBid n v x b dr l q hx h1 h2 h3 h4 h5 h6 h7 =>
    obtain ⟨x', e1, e3⟩ := hst
    rw [hx] at e1; simp at e1; subst e1
    have hok := hi.ok n x hx
    have hle : (findBid a x.bids).getD 0 ≤ v := by
      have hm := beats_max h4 hok.ladder fun y hy => (hok.bid y hy).2.1
      cases hf : findBid a x.bids with
      | none => simp
      | some u => have := hm.2 _ (findBid_mem hf); simp; omega
    have e2 : (truth w).auction n = some x := hx
    have hone := hok.one
    have hb := earlier (a := a) x.bids hone
    simp only [wt1, decide_eq_true_eq] at e3
    simp only [emit, droppedEvent, hx, h6]
    rcases dr with _ | z
    · simp only [List.nil_append, List.map_cons, List.map_nil, total, handsOver, getsBack, spends, bidsOn, e2, Option.elim]
      by_cases e : a = y
      · subst e; simp only [if_true, hb] at *; omega
      · simp only [e, if_false] at *; omega
    · have hy : z.1 ≠ a := by
        rw [removeBid_filter hone] at h6
        unfold insertBid at h6
        split at h6
        · split at h6
          · simp at h6
          · rename_i z t ht
            simp only [Except.ok.injEq, Prod.mk.injEq, Option.some.injEq] at h6
            obtain ⟨rfl, rfl⟩ := h6
            have : z ∈ x.bids.filter fun y => decide (y.1 ≠ a) := by rw [ht]; simp
            simpa using (List.mem_filter.1 this).2
        · simp at h6
      have e4 : (see c.rentPot c.grace w.now (truth w) (.bidDropped n z.1 z.2)).auction n =
          some { x with bids := x.bids.filter fun u => u.1 ≠ z.1 } := by
        simp only [see, View.on, View.at_, View.refund, e2, if_true, Option.map_some]
      have e5 : (x.bids.filter fun u => decide (u.1 ≠ z.1)).filter (fun u => decide (u.1 = a)) =
          x.bids.filter fun u => decide (u.1 = a) := by
        rw [List.filter_filter]
        apply List.filter_congr
        intro u _
        by_cases e : u.1 = a
        · simp [e, Ne.symm hy]
        · simp [e]
      simp only [List.cons_append, List.nil_append, List.map_cons, List.map_nil, total, handsOver, getsBack, spends, bidsOn,
        e4, Option.elim]
      by_cases e : a = y
      · subst e; simp only [if_true, e5, hb] at *; omega
      · simp only [e, if_false] at *; omega
  | @removeBid n x v b hx h1 h2 h3 =>
    obtain ⟨x', u, e1, e2, e3⟩ := hst
    rw [hx] at e1; simp at e1; subst e1
    rw [h2] at e2; simp at e2; subst e2
    simp only [wt1, decide_eq_true_eq] at e3
    simp only [emit, hx, Option.bind_some, h2, Option.getD_some, List.map_cons, List.map_nil, total, handsOver, getsBack,
      spends]
    omega
  | @buyItNow n p d x b hd hx h1 h2 h3 h4 h5 =>
    have e2 : (truth w).auction n = some x := hx
    have hn : (a, p) ∉ x.bids := by
      intro hm
      obtain ⟨top, hl⟩ : ∃ top, x.bids.getLast? = some top := by
        cases e : x.bids.getLast? with
        | none => rw [List.getLast?_eq_none_iff] at e; simp [e] at hm
        | some t => exact ⟨t, rfl⟩
      have := h4 top hl
      rcases last_max (hi.ok n x hx).ladder hl hm with rfl | h2
      · simp at this
      · simp only at h2; omega
    simp only [emit, soldEvent, List.map_cons, List.map_nil, total, handsOver, getsBack, spends, bidsOn, e2, Option.elim, hn,
      and_false, if_false]
    simp only at hst
    omega
  | @claim v b h1 h2 =>
    obtain ⟨u, e1, e3⟩ := hst
    rw [h1] at e1; simp at e1; subst e1
    simp only [wt1, decide_eq_true_eq] at e3
    simp only [emit, h1, Option.getD_some, List.map_cons, List.map_nil, total, handsOver, getsBack, spends]
    omega

theorem settle_tallied (n : NFTId) (y : AccountId) :
    Tallied c y w (settleOne c w n).1 ((settleEmit c w n).map fun e => (w.now, e)) := by
  have zero : ∀ w' : World, stakeOf w' y = stakeOf w y → Tallied c y w w' [] := by
    intro w' e; simp only [Tallied, total, e]
  unfold settleOne settleEmit
  cases hx : w.auc.auctions.get n with
  | none => exact zero _ rfl
  | some x =>
    cases hd : w.nfts.get n with
    | none => exact zero _ rfl
    | some d =>
      simp only
      cases ht : x.bids.getLast? with
      | none =>
        have e : x.bids = [] := List.getLast?_eq_none_iff.1 ht
        have e1 := auctions_erase (P := fun z => decide (z = y)) hx
        simp only [e, wt_nil] at e1
        simp only [List.map_cons, List.map_nil, Tallied, total, handsOver, getsBack, spends, Spec.stakeOf_eq, AucM.stake]
        simp only [World.putNft, World.ev] at *
        omega
      | some top =>
        rcases hp : payForNft c w n c.aucPot top.2 d x with ⟨b, _ | _⟩
        · simp only [hp]; exact zero _ rfl
        · have e2 : (truth w).auction n = some x := hx
          simp only [hp, soldEvent, List.map_cons, List.map_nil, Tallied, total, handsOver, getsBack, spends, bidsOn, e2,
            Option.elim, Prod.mk.eta, List.mem_of_getLast? ht, and_true]
          have := pop_stake (w := w) (w' := (settleOne c w n).1) (y := y) hx ht
            (by simp [settleOne, hx, hd, ht, hp, World.putNft, World.putBal, World.ev])
            (by simp [settleOne, hx, hd, ht, hp, World.putNft, World.putBal, World.ev])
          simp only [settleOne, hx, hd, ht, hp] at this
          omega

end AucM

theorem Spec.Tallied.append {y : AccountId} {w1 : World} {l l' : List (Block × Event)} (h : Tallied c y w w1 l)
    (hb : truth w1 = books c.rentPot c.grace (truth w) l) (h' : Tallied c y w1 w' l') : Tallied c y w w' (l ++ l') := by
  unfold Tallied at *
  rw [hb] at h'
  simp only [total_append]
  omega

theorem AucM.loop_tallied (hi : Ladders w) (q : Queue) (k : Nat) (y : AccountId) :
    Tallied c y w (hookLoop c w q k).1 ((hookEmit c w q k).map fun e => (w.now, e)) := by
  induction q generalizing w k with
  | nil => simp [hookLoop, hookEmit, Tallied, total]
  | cons x q ih =>
    obtain ⟨n, e⟩ := x
    obtain ⟨h1, h2, h3⟩ := settle_seen (c := c) hi n
    have h0 := settle_tallied (c := c) (w := w) n y
    have next : ∀ k', Tallied c y w (hookLoop c (settleOne c w n).1 q k').1
        ((settleEmit c w n ++ hookEmit c (settleOne c w n).1 q k').map fun e => (w.now, e)) := by
      intro k'
      rw [List.map_append]
      refine h0.append (by rw [books_map]; exact h1) ?_
      have := ih h2 k'
      rwa [h3] at this
    simp only [hookLoop, hookEmit]
    split
    · split
      · split
        · simpa using h0
        · exact next _
      · exact next _
    · simp [Tallied, total]

theorem AucM.hook_tallied (hc : c.Ok) (hr : Reach c w) (y : AccountId) :
    Tallied c y w (hook c w) ((hookEmit c w w.auc.deadlines 0).map fun e => (w.now, e)) :=
  loop_tallied (fun n x hx => ((hr.auc hc).ok n x hx).ladder) w.auc.deadlines 0 y

/-! ## Other operations -/

theorem TrM.hook_nobid (w : World) (q : Queue) (k : Nat) : ∀ e ∈ hookEmit c w q k, NoBid e = true := by
  induction q generalizing w k with
  | nil => simp [hookEmit]
  | cons x q ih =>
    obtain ⟨n, b⟩ := x
    simp only [hookEmit]
    split
    · intro e he
      rcases List.mem_cons.1 he with rfl | he
      · unfold oneEvent; split <;> rfl
      · revert he
        generalize (if (hookOne w n).2 = true then k + 1 else k) = k'
        split
        · simp
        · exact ih _ _ e
    · simp

namespace RentM

theorem finishEmit_nobid {e : NFTId → Event} (he : ∀ n, NoBid (e n) = true) (q : Queue) (w : World) (i : Nat) :
    ∀ x ∈ finishEmit c e w q i, NoBid x = true := by
  induction q generalizing w i with
  | nil => simp [finishEmit]
  | cons y q ih =>
    obtain ⟨n, b⟩ := y
    simp only [finishEmit]
    split
    · intro x hx
      rcases List.mem_cons.1 hx with rfl | hx
      · exact he n
      · split at hx
        · simp at hx
        · exact ih _ _ x hx
    · simp

theorem subEmit_nobid (fuel : Nat) (q : Queue) (w : World) (i : Nat) : ∀ x ∈ subEmit c w q i fuel, NoBid x = true := by
  induction fuel generalizing w q i with
  | zero => simp [subEmit]
  | succ f ih =>
    cases q with
    | nil => simp [subEmit]
    | cons y q =>
      obtain ⟨n, b⟩ := y
      simp only [subEmit]
      split
      · intro x hx
        rcases List.mem_cons.1 hx with rfl | hx
        · unfold subEvent; split <;> rfl
        · split at hx
          · simp at hx
          · exact ih _ _ _ x hx
      · simp

theorem hook_nobid : ∀ x ∈ hookEmit c w, NoBid x = true := by
  intro x hx
  simp only [hookEmit, List.mem_append] at hx
  rcases hx with (hx | hx) | hx
  · exact finishEmit_nobid (fun _ => rfl) _ _ _ x hx
  · exact subEmit_nobid _ _ _ _ x hx
  · exact finishEmit_nobid (fun _ => rfl) _ _ _ x hx

end RentM

theorem signedEmit_nobid (x : Call) (hx : ∀ y, x ≠ .auc y) : ∀ e ∈ signedEmit c w a x, NoBid e = true := by
  refine List.all_eq_true.1 ?_
  cases x with
  | nft x =>
    cases x <;> simp only [signedEmit, NftM.emit] <;> first | rfl | (split <;> rfl)
  | mkt x =>
    cases x <;> simp only [signedEmit, MktM.emit] <;> first | rfl | (split <;> rfl)
  | auc x => exact absurd rfl (hx x)
  | rent x => cases x <;> rfl
  | tr x =>
    cases x <;> simp only [signedEmit, TrM.emit] <;>
      first | rfl |
        (split
         · split <;> rfl
         · rfl)
  | _ => rfl

theorem rootEmit_nobid (x : RootCall) : ∀ e ∈ rootEmit x, NoBid e = true := by
  cases x <;> simp [rootEmit, NoBid]

theorem callEmit_nobid (x : Call) : ∀ (o : Origin) (w : World), (∀ a, o ≠ .signed a) →
    ∀ e ∈ callEmit c w x o, NoBid e = true := by
  induction x with
  | mandate y ih =>
    intro o w ho
    cases o with
    | signed a => exact absurd rfl (ho a)
    | root =>
      simp only [callEmit]
      split
      · exact ih .root w (by simp)
      · simp
    | ext =>
      simp only [callEmit]
      split
      · exact ih .root w (by simp)
      · simp
  | root y =>
    intro o w ho
    cases o with
    | signed a => exact absurd rfl (ho a)
    | root => exact rootEmit_nobid y
    | ext => simp [callEmit]
  | _ =>
    intro o w ho
    cases o with
    | signed a => exact absurd rfl (ho a)
    | root => simp [callEmit]
    | ext => simp [callEmit]

theorem emit_nobid (o : Op) (h1 : o ≠ .hookAuc) (h2 : ∀ a x, o ≠ .call (.signed a) (.auc x)) :
    ∀ e ∈ emit c w o, NoBid e = true := by
  cases o <;> simp only [emit]
  case call o x =>
    split
    · cases o with
      | signed a =>
        by_cases hx : ∃ y, x = .auc y
        · obtain ⟨y, rfl⟩ := hx; exact absurd rfl (h2 a y)
        · have e : callEmit c w x (.signed a) = signedEmit c w a x := by cases x <;> rfl
          rw [e]
          exact signedEmit_nobid x fun y e => hx ⟨y, e⟩
      | root => exact callEmit_nobid x _ w (by simp)
      | ext => exact callEmit_nobid x _ w (by simp)
    · simp
  case hookAuc => exact absurd rfl h1
  case hookRent => exact RentM.hook_nobid
  case hookTr => exact TrM.hook_nobid _ _ _
  all_goals simp

/-- one operation -/
theorem step_tallied (hc : c.Ok) (hr : Reach c w) (o : Op) (ho : o.Ok c) (y : AccountId) :
    Tallied c y w (step c w o) ((emit c w o).map fun e => (w.now, e)) := by
  by_cases h1 : o = .hookAuc
  · subst h1; exact AucM.hook_tallied hc hr y
  by_cases h2 : ∃ a x, o = .call (.signed a) (.auc x)
  · obtain ⟨a, x, rfl⟩ := h2
    simp only [step, emit]
    cases h : dispatch c (.auc x) (.signed a) w with
    | error e => simp [orSame, Tallied, total]
    | ok w' => exact AucM.tallied hc hr h y
  · refine .none (emit_nobid o h1 fun a x e => h2 ⟨a, x, e⟩) ?_ _
    rcases step_auc_case w o ho with ⟨a, x, rfl, _⟩ | ⟨rfl, _⟩ | e
    · exact absurd ⟨a, x, rfl⟩ h2
    · exact absurd rfl h1
    · exact e

/-! ## The NFT goes to the winner -/

theorem AucM.settle_nft (n m : NFTId) (h : m ≠ n) : (settleOne c w n).1.nfts.get m = w.nfts.get m := by
  unfold settleOne
  cases hx : w.auc.auctions.get n with
  | none => rfl
  | some x =>
    cases hd : w.nfts.get n with
    | none => rfl
    | some d =>
      cases ht : x.bids.getLast? with
      | none => simp [World.putNft, World.ev, FMap.get_insert, h, ht]
      | some top =>
        rcases hp : payForNft c w n c.aucPot top.2 d x with ⟨b, _ | _⟩ <;>
          simp [World.putNft, World.putBal, World.ev, FMap.get_insert, h, ht, hp]

theorem AucM.loop_nft (q : Queue) (k : Nat) {m : NFTId} (h : m ∉ q.ids) :
    (hookLoop c w q k).1.nfts.get m = w.nfts.get m := by
  induction q generalizing w k with
  | nil => rfl
  | cons x q ih =>
    obtain ⟨n, e⟩ := x
    simp only [Queue.ids, List.map_cons, List.mem_cons, not_or] at h
    have e := settle_nft (c := c) (w := w) n m h.1
    simp only [hookLoop]
    split
    · split
      · split
        · exact e
        · rw [ih _ h.2, e]
      · rw [ih _ h.2, e]
    · rfl

theorem AucM.settle_owner {n m : NFTId} {y : AccountId} {v : Balance} {z}
    (h : .auctionCompleted m (some y) (some v) z ∈ settleEmit c w n) :
    m = n ∧ ∃ d, (settleOne c w n).1.nfts.get n = some d ∧ d.owner = y := by
  unfold settleEmit at h
  unfold settleOne
  cases hx : w.auc.auctions.get n with
  | none => simp [hx] at h
  | some x =>
    cases hd : w.nfts.get n with
    | none => simp [hx, hd] at h
    | some d =>
      cases ht : x.bids.getLast? with
      | none => simp [hx, hd, ht] at h
      | some top =>
        rcases hp : payForNft c w n c.aucPot top.2 d x with ⟨b, _ | _⟩
        · simp [hx, hd, ht, hp] at h
        · simp only [hx, hd, ht, hp, soldEvent, List.mem_singleton, Event.auctionCompleted.injEq, Option.some.injEq] at h
          obtain ⟨rfl, rfl, _⟩ := h
          refine ⟨rfl, { d with owner := top.1, st := { d.st with listed := false } }, ?_, rfl⟩
          simp [ht, hp, World.putNft, World.putBal, World.ev]

theorem AucM.loop_owner {m : NFTId} {y : AccountId} {v : Balance} {z} (q : Queue) (k : Nat) (hq : q.ids.Nodup)
    (h : .auctionCompleted m (some y) (some v) z ∈ hookEmit c w q k) :
    m ∈ q.ids ∧ ∃ d, (hookLoop c w q k).1.nfts.get m = some d ∧ d.owner = y := by
  induction q generalizing w k with
  | nil => simp [hookEmit] at h
  | cons x q ih =>
    obtain ⟨n, e⟩ := x
    simp only [Queue.ids, List.map_cons, List.nodup_cons] at hq
    simp only [Queue.ids, List.map_cons, List.mem_cons]
    have next : ∀ k', .auctionCompleted m (some y) (some v) z ∈ settleEmit c w n ++ hookEmit c (settleOne c w n).1 q k' →
        (m = n ∨ m ∈ Queue.ids q) ∧ ∃ d, (hookLoop c (settleOne c w n).1 q k').1.nfts.get m = some d ∧ d.owner = y := by
      intro k' h
      rcases List.mem_append.1 h with h | h
      · obtain ⟨rfl, d, hd, ho⟩ := settle_owner h
        exact ⟨.inl rfl, d, by rw [loop_nft _ _ hq.1]; exact hd, ho⟩
      · obtain ⟨h1, h2⟩ := ih _ hq.2 h
        exact ⟨.inr h1, h2⟩
    simp only [hookLoop, hookEmit] at h ⊢
    split at h
    · rename_i hb
      simp only [if_pos hb]
      split at h
      · rename_i hr
        simp only [if_pos hr]
        split at h
        · rename_i hk
          simp only [if_pos hk]
          rw [List.append_nil] at h
          obtain ⟨rfl, d, hd, ho⟩ := settle_owner h
          exact ⟨.inl rfl, d, hd, ho⟩
        · rename_i hk
          simp only [if_neg hk]
          exact next _ h
      · rename_i hr
        simp only [if_neg hr]
        exact next _ h
    · simp at h

theorem step_winner (hc : c.Ok) (hr : Reach c w) (o : Op) {m : NFTId} {y : AccountId} {v : Balance} {z}
    (h : .auctionCompleted m (some y) (some v) z ∈ emit c w o) :
    ∃ d, (step c w o).nfts.get m = some d ∧ d.owner = y := by
  by_cases h1 : o = .hookAuc
  · subst h1; exact (AucM.loop_owner _ _ (hr.auc hc).wf.nd h).2
  by_cases h2 : ∃ a x, o = .call (.signed a) (.auc x)
  · obtain ⟨a, x, rfl⟩ := h2
    simp only [step, emit] at h ⊢
    cases hd : dispatch c (.auc x) (.signed a) w with
    | error e => simp [hd] at h
    | ok w' =>
      simp only [hd, callEmit, signedEmit] at h
      show ∃ d, w'.nfts.get m = some d ∧ d.owner = y
      cases AucM.call_act hd with
      | @end_ n d x top b hd hx h1 h2 h3 h4 =>
        simp only [AucM.emit, hx, h3, Option.bind_some, AucM.soldEvent, List.mem_singleton, Event.auctionCompleted.injEq,
          Option.some.injEq] at h
        obtain ⟨rfl, rfl, _⟩ := h
        exact ⟨_, FMap.get_insert_self _ _ _, rfl⟩
      | @buyItNow n p d x b hd hx h1 h2 h3 h4 h5 =>
        simp only [AucM.emit, AucM.soldEvent, List.mem_singleton, Event.auctionCompleted.injEq, Option.some.injEq] at h
        obtain ⟨rfl, rfl, _⟩ := h
        exact ⟨_, FMap.get_insert_self _ _ _, rfl⟩
      | @addBid n v x b dr l q hx h1 h2 h3 h4 h5 h6 h7 =>
        simp only [AucM.emit, AucM.droppedEvent, hx, h6] at h
        cases dr <;> simp at h
      | _ => simp [AucM.emit] at h
  · simpa [NoBid] using emit_nobid o h1 (fun a x e => h2 ⟨a, x, e⟩) _ h

import Verif.Proofs.AcceptNft
/-
Lemmas for C115: calls of the marketplace and auction pallets.
-/
variable {c : Cfg} {w w' : World} {a : AccountId}
set_option maxRecDepth 10000
open Spec Spec.Accept

namespace MktM

theorem admits_iff {m : Mkt} {k : Option CollId} : allowedToList m a k = true ↔ Refuse.Admits m a k := by
  unfold allowedToList Refuse.Admits
  cases m.kind <;> cases m.accounts <;> cases m.colls <;> cases k <;> simp <;> tauto

theorem covers_iff {p : Balance} {f : Option CompoundFee} : covers p f = true ↔ ∀ x, f = some (.flat x) → x ≤ p := by
  refine ⟨covers_flat, fun h => ?_⟩
  rcases f with _ | ⟨x⟩ | x
  · rfl
  · simpa [covers] using h
  · rfl

theorem accept_fwd {x : Call} (h : call c w a x = .ok w') :
    Room c w a (.mkt x) ∧ CanPayAll c.ed (purse w.bal) (dues c w a (.mkt x)) := by
  cases x <;> simp only [call] at h <;> simp only [Room, dues]
  case create =>
    simp only [create, Exec.bind_ok, NftM.next_iff] at h
    obtain ⟨b, hb, n, ⟨hn, _⟩, _⟩ := h
    exact ⟨hn, payFee_one.1 ⟨b, hb⟩⟩
  case list n m p =>
    simp only [list] at h; inv_ok at h
    obtain ⟨d, k, b, _, _, _, _, _, _, _, _, _, h9, _, _, hb, _⟩ := h
    rw [h9]
    refine ⟨trivial, pays_cons.2 ⟨b, ?_, can_nil⟩⟩
    rw [charge_eq]; exact hb
  case buy n p =>
    simp only [buy] at h; inv_ok at h
    obtain ⟨d, s, k, b1, b2, b3, hd, hs, hk, _, rfl, _, t1, _, t2, _, t3, _⟩ := h
    rw [hd, hs]
    refine ⟨trivial, ?_⟩
    simp only [hk, Option.elim_some, saleOf, List.map_cons, List.map_nil, charge_eq]
    exact pays_cons.2 ⟨b1, t1, pays_cons.2 ⟨b2, t2, pays_cons.2 ⟨b3, t3, can_nil⟩⟩⟩
  all_goals exact ⟨trivial, trivial⟩

theorem accept_bwd (hc : c.Ok) (hr : Reach c w) {x : Call} (he : Entitled w a (.mkt x)) (hf : Refuse.Fit c w a (.mkt x))
    (hm : Room c w a (.mkt x)) (hp : CanPayAll c.ed (purse w.bal) (dues c w a (.mkt x))) :
    ∃ w', call c w a x = .ok w' := by
  cases x <;> simp only [call] <;> simp only [Entitled, Refuse.Fit, Room, dues] at he hf hm hp
  case create k =>
    obtain ⟨b, hb⟩ := payFee_one.2 hp
    simp only [create, Exec.bind_ok, NftM.next_iff, Exec.pure_ok]
    exact ⟨_, b, hb, _, ⟨hm, rfl⟩, rfl⟩
  case setOwner m r =>
    obtain ⟨k, hk, ho⟩ := he
    simp only [setOwner, Exec.bind_ok, Exec.require_ok, Exec.exists_unit, Exec.getOr_ok, Exec.pure_ok]
    exact ⟨_, hf.1, k, hk, ho, rfl⟩
  case setKind m r =>
    obtain ⟨k, hk, ho⟩ := he
    simp only [setKind, Exec.bind_ok, Exec.require_ok, Exec.exists_unit, Exec.getOr_ok, Exec.pure_ok]
    exact ⟨_, k, hk, ho, rfl⟩
  case setConfig m f l x o y =>
    obtain ⟨k, hk, ho⟩ := he
    simp only [setConfig, Exec.bind_ok, Exec.require_ok, Exec.exists_unit, Exec.getOr_ok, Exec.pure_ok]
    exact ⟨_, k, hk, ho, rfl⟩
  case list n m p =>
    obtain ⟨d, hd, rfl⟩ := he
    obtain ⟨d', hd', ⟨h1, h2, h3, h4⟩, ⟨h5, h6⟩, h7, k, hk, h8, h9⟩ := hf
    obtain rfl : d = d' := by rw [hd] at hd'; exact Option.some.inj hd'
    rw [hk] at hp
    obtain ⟨b, hb, _⟩ := pays_cons.1 hp
    rw [charge_eq] at hb
    simp only [list, Exec.bind_ok, Exec.require_ok, Exec.exists_unit, Exec.getOr_ok, Exec.pure_ok]
    exact ⟨_, d, hd, rfl, h1, h2, fun e => e.2 (h7 e.1), h5, h3, h6, h4, k, hk, admits_iff.2 h8, covers_iff.2 h9, b, hb, rfl⟩
  case unlist n =>
    obtain ⟨⟨d, hd, ho⟩, s, hs, _⟩ := he
    simp only [unlist, Exec.bind_ok, Exec.require_ok, Exec.exists_unit, Exec.getOr_ok, Exec.pure_ok]
    exact ⟨_, d, hd, ho, s, hs, rfl⟩
  case buy n p =>
    obtain ⟨s, hs, hne, rfl⟩ := he
    obtain ⟨s', hs', h1, h2⟩ := hf
    obtain rfl : s = s' := by rw [hs] at hs'; exact Option.some.inj hs'
    have g := (hr.inv hc).good n
    obtain ⟨d, hd⟩ := g.some_of (fun e => by
      have := congrArg Slice.sale e; simp [slice, Slice.blank, hs] at this)
    have hd : w.nfts.get n = some d := hd
    obtain ⟨q1, q2⟩ := C15_commission hr hs
    cases hk : w.mkt.mkts.get s.mkt with
    | none => exact absurd hk q2
    | some k =>
      rw [hd, hs] at hp
      simp only [hk, Option.elim_some, saleOf, List.map_cons, List.map_nil, charge_eq] at hp
      obtain ⟨b1, t1, hp⟩ := pays_cons.1 hp
      obtain ⟨b2, t2, hp⟩ := pays_cons.1 hp
      obtain ⟨b3, t3, _⟩ := pays_cons.1 hp
      rw [Spec.commission_eq] at q1
      simp only [buy, Exec.bind_ok, Exec.require_ok, Exec.exists_unit, Exec.getOr_ok, Exec.pure_ok]
      exact ⟨_, d, hd, s, hs, k, hk, hne, rfl, h1, b1, t1, q1, b2, t2, Permill.mul_le _ _, b3, t3, rfl⟩

end MktM

namespace AucM

theorem bidOf_eq (x : Auction) (a : AccountId) : bidOf x a = (findBid a x.bids).getD 0 := by
  unfold bidOf
  induction x.bids with
  | nil => rfl
  | cons y t ih =>
    obtain ⟨k, v⟩ := y
    by_cases e : k = a
    · simp [findBid, e]
    · simp only [findBid, e, if_false]
      rw [← ih]
      simp [e]

theorem seq_iff {src : AccountId} {l : Live} (t : List (AccountId × Balance)) : ∀ b : Bal,
    (∃ b', paySeq c b src l t = (b', .ok ())) ↔
      CanPayAll c.ed (purse b) (t.map fun z => ⟨src, some z.1, z.2, l = .allowDeath⟩) := by
  induction t with
  | nil => intro b; simp [paySeq, CanPayAll]
  | cons z t ih =>
    intro b
    rw [List.map_cons, due_cons]
    obtain ⟨d, v⟩ := z
    simp only [paySeq]
    cases h : b.transfer c.ed src d v l with
    | error e => simp
    | ok b1 => simp [ih b1]

theorem ext_iff {src : AccountId} {n : NFTId} {d : NFTData} {x : Auction} {v : Balance} {pay : AccountId → Balance → Due}
    (hx : w.auc.auctions.get n = some x) (hd : w.nfts.get n = some d) (hm : w.mkt.mkts.get x.mkt ≠ none)
    (hf : w.auc.comm.get n ≠ none)
    (hpay : ∀ y v, pay y v = ⟨src, some y, v, (if src = c.aucPot then Live.allowDeath else .keepAlive) = .allowDeath⟩) :
    (∃ b, payForNftExt c w n src v d x = .ok b) ↔ CanPayAll c.ed (purse w.bal) (auctionDues w n v pay) := by
  cases hm' : w.mkt.mkts.get x.mkt with
  | none => exact absurd hm' hm
  | some m =>
    cases hf' : w.auc.comm.get n with
    | none => exact absurd hf' hf
    | some f =>
      have h1 := seq_iff (c := c) (src := src) (l := if src = c.aucPot then .allowDeath else .keepAlive)
        [(m.owner, (cuts v f d.royalty).1), (d.creator, (cuts v f d.royalty).2.1), (x.creator, (cuts v f d.royalty).2.2)]
        w.bal
      have h2 : auctionDues w n v pay = [(m.owner, (cuts v f d.royalty).1), (d.creator, (cuts v f d.royalty).2.1),
          (x.creator, (cuts v f d.royalty).2.2)].map fun z =>
            ⟨src, some z.1, z.2, (if src = c.aucPot then Live.allowDeath else .keepAlive) = .allowDeath⟩ := by
        simp [auctionDues, hx, hd, hf', hm', saleOf, cuts, charge_eq, hpay]
      rw [h2, ← h1]
      unfold payForNftExt payForNft
      simp only [hm', hf']
      rcases paySeq c w.bal src (if src = c.aucPot then .allowDeath else .keepAlive)
        [(m.owner, (cuts v f d.royalty).1), (d.creator, (cuts v f d.royalty).2.1), (x.creator, (cuts v f d.royalty).2.2)]
        with ⟨b, e | u⟩ <;> simp

theorem accept_fwd (hc : c.Ok) (hr : Reach c w) (ha : ¬ c.pot a) {x : Call} (h : call c w a x = .ok w') :
    Room c w a (.auc x) ∧ CanPayAll c.ed (purse w.bal) (dues c w a (.auc x)) := by
  cases x <;> simp only [call] at h <;> simp only [Room, dues]
  case end_ n =>
    simp only [end_] at h; inv_ok at h
    obtain ⟨d, x, top, b, hd, hx, _, _, ht, hb, _⟩ := h
    have ok := (hr.auc hc).ok n x hx
    simp only [hx, ht, Option.elim_some]
    refine ⟨trivial, (ext_iff (c := c) (src := c.aucPot) hx hd ok.mkt (by obtain ⟨f, hf, _⟩ := ok.comm; rw [hf]; simp) ?_).1 ⟨b, hb⟩⟩
    intro y v; simp [paysAll]
  case buyItNow n p =>
    simp only [buyItNow] at h; inv_ok at h
    obtain ⟨d, x, _, b, hd, hx, _, rfl, _, _, _, hb, _⟩ := h
    have ok := (hr.auc hc).ok n x hx
    refine ⟨trivial, (ext_iff (c := c) (src := a) hx hd ok.mkt (by obtain ⟨f, hf, _⟩ := ok.comm; rw [hf]; simp) ?_).1 ⟨b, hb⟩⟩
    have : a ≠ c.aucPot := fun e => ha (.inl e)
    intro y v; simp [pays, this]
  case addBid n v =>
    simp only [addBid] at h; inv_ok at h
    obtain ⟨x, b, _, _, hx, _, _, _, _, hb, _⟩ := h
    simp only [hx, Option.elim_some, bidOf_eq]
    exact ⟨trivial, pays_cons.2 ⟨b, hb, can_nil⟩⟩
  case removeBid n =>
    simp only [removeBidCall] at h; inv_ok at h
    obtain ⟨x, v, b, hx, _, hv, hb, _⟩ := h
    simp only [hx, Option.elim_some, bidOf_eq, hv, Option.getD_some]
    exact ⟨trivial, paysAll_cons.2 ⟨b, hb, can_nil⟩⟩
  case claim =>
    simp only [claim] at h; inv_ok at h
    obtain ⟨v, b, hv, hb, _⟩ := h
    simp only [hv, Option.elim_some]
    exact ⟨trivial, paysAll_cons.2 ⟨b, hb, can_nil⟩⟩
  all_goals exact ⟨trivial, trivial⟩

theorem find_some {l : List (AccountId × Balance)} {v : Balance} (h : (a, v) ∈ l) : ∃ u, findBid a l = some u := by
  induction l with
  | nil => simp at h
  | cons y t ih =>
    obtain ⟨k, u⟩ := y
    by_cases e : k = a
    · exact ⟨u, by simp [findBid, e]⟩
    · simp only [findBid, e, if_false]
      rcases List.mem_cons.1 h with h | h
      · simp at h; exact absurd h.1.symm e
      · exact ih h

theorem accept_bwd (hc : c.Ok) (hr : Reach c w) (ha : ¬ c.pot a) {x : Call} (he : Entitled w a (.auc x))
    (hf : Refuse.Fit c w a (.auc x)) (hp : CanPayAll c.ed (purse w.bal) (dues c w a (.auc x))) :
    ∃ w', call c w a x = .ok w' := by
  have hi := hr.auc hc
  have nft : ∀ {n x}, w.auc.auctions.get n = some x → ∃ d, w.nfts.get n = some d := by
    intro n x hx
    have g := (hr.inv hc).good n
    exact g.some_of (fun e => by have := congrArg Slice.auc e; simp [slice, Slice.blank, hx] at this)
  have some_comm : ∀ {n x}, w.auc.auctions.get n = some x → w.auc.comm.get n ≠ none := by
    intro n x hx
    obtain ⟨f, hf, _⟩ := (hi.ok n x hx).comm; rw [hf]; simp
  cases x <;> simp only [call] <;> simp only [Entitled, Refuse.Fit, dues] at he hf hp
  case create n m s e p b =>
    obtain ⟨d, hd, rfl⟩ := he
    obtain ⟨⟨d', hd', ⟨h1, h2, h3, h4⟩, ⟨h5, h6⟩, h7, k, hk, h8, h9⟩, g1, g2, g3, g4, g5, g6, g7⟩ := hf
    obtain rfl : d = d' := by rw [hd] at hd'; exact Option.some.inj hd'
    simp only [create, Exec.bind_ok, Exec.require_ok, Exec.exists_unit, Exec.getOr_ok, Exec.pure_ok]
    exact ⟨_, g1, g3, by omega, by omega, by omega, fun y hy => g6 y hy, d, hd, rfl, h1, h2, fun e => e.2 (h7 e.1), h5, h3,
      h6, h4, k, hk, MktM.admits_iff.2 h8, MktM.covers_iff.2 h9, _, by unfold Queue.insert; rw [if_pos g7], rfl⟩
  case cancel n =>
    obtain ⟨x, hx, ho⟩ := he
    obtain ⟨x', hx', h1⟩ := hf
    obtain rfl : x = x' := by rw [hx] at hx'; exact Option.some.inj hx'
    obtain ⟨d, hd⟩ := nft hx
    simp only [cancel, Exec.bind_ok, Exec.require_ok, Exec.exists_unit, Exec.getOr_ok, Exec.pure_ok]
    exact ⟨_, d, hd, x, hx, ho, by omega, rfl⟩
  case end_ n =>
    obtain ⟨x, hx, ho⟩ := he
    obtain ⟨x', hx', h1, h2⟩ := hf
    obtain rfl : x = x' := by rw [hx] at hx'; exact Option.some.inj hx'
    obtain ⟨d, hd⟩ := nft hx
    cases ht : x.bids.getLast? with
    | none => exact absurd (by simpa using ht) h2
    | some top =>
      simp only [hx, ht, Option.elim_some] at hp
      obtain ⟨b, hb⟩ := (ext_iff (c := c) (src := c.aucPot) hx hd (hi.ok n x hx).mkt (some_comm hx)
        (by intro y v; simp [paysAll])).2 hp
      simp only [end_, Exec.bind_ok, Exec.require_ok, Exec.exists_unit, Exec.getOr_ok, Exec.pure_ok]
      exact ⟨_, d, hd, x, hx, ho, h1, top, ht, b, hb, rfl⟩
  case addBid n v =>
    obtain ⟨x, hx, ho⟩ := he
    obtain ⟨x', hx', h1, h2, h3, h4⟩ := hf
    obtain rfl : x = x' := by rw [hx] at hx'; exact Option.some.inj hx'
    simp only [hx, Option.elim_some, bidOf_eq] at hp
    obtain ⟨b, hb, _⟩ := pays_cons.1 hp
    obtain ⟨l, hl⟩ := insertBid_no_panic (c := c) hc (l := AucM.removeBid a x.bids) (a := a) (v := v)
    obtain ⟨q, hq⟩ : ∃ q, updateDeadline c w.auc.deadlines n (extend c { x with bids := l.2 } w.now).2 = .ok q := by
      cases (extend c { x with bids := l.2 } w.now).2 with
      | none => exact ⟨_, rfl⟩
      | some e => exact Queue.update_no_panic hi.len
    have hb1 : beats x v = true := by
      unfold beats
      cases ht : x.bids.getLast? with
      | none => simpa using h3 (by simpa using ht)
      | some top => simpa using h4 top ht
    simp only [addBid, Exec.bind_ok, Exec.require_ok, Exec.exists_unit, Exec.getOr_ok, Exec.pure_ok]
    exact ⟨_, x, hx, ho, h1, h2, hb1, b, hb, l, hl, q, hq, rfl⟩
  case removeBid n =>
    obtain ⟨x, v, hx, hv⟩ := he
    obtain ⟨x', hx', h1⟩ := hf
    obtain rfl : x = x' := by rw [hx] at hx'; exact Option.some.inj hx'
    obtain ⟨u, hu⟩ := find_some hv
    simp only [hx, Option.elim_some, bidOf_eq, hu, Option.getD_some] at hp
    obtain ⟨b, hb, _⟩ := paysAll_cons.1 hp
    simp only [removeBidCall, Exec.bind_ok, Exec.require_ok, Exec.exists_unit, Exec.getOr_ok, Exec.pure_ok]
    exact ⟨_, x, hx, by omega, u, hu, b, hb, rfl⟩
  case buyItNow n p =>
    obtain ⟨x, hx, ho, h0⟩ := he
    obtain ⟨x', hx', h1, h2⟩ := hf
    obtain rfl : x = x' := by rw [hx] at hx'; exact Option.some.inj hx'
    obtain ⟨d, hd⟩ := nft hx
    have : a ≠ c.aucPot := fun e => ha (.inl e)
    obtain ⟨b, hb⟩ := (ext_iff (c := c) (src := a) hx hd (hi.ok n x hx).mkt (some_comm hx)
      (by intro y v; simp [pays, this])).2 hp
    simp only [buyItNow, Exec.bind_ok, Exec.require_ok, Exec.exists_unit, Exec.getOr_ok, Exec.pure_ok]
    exact ⟨_, d, hd, x, hx, p, h0, rfl, ho, h1, fun y hy => h2 y hy, b, hb, rfl⟩
  case claim =>
    obtain ⟨v, hv⟩ := he
    simp only [hv, Option.elim_some] at hp
    obtain ⟨b, hb, _⟩ := paysAll_cons.1 hp
    simp only [claim, Exec.bind_ok, Exec.getOr_ok, Exec.pure_ok]
    exact ⟨_, v, hv, b, hb, rfl⟩

end AucM

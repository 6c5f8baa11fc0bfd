import Verif.Props.HookSpec
import Verif.Proofs.Blind
import Verif.Proofs.RentHook
import Verif.Props.Rent
import Verif.Props.Apply
import Verif.Props.Auction
/-
C141: what a party can do by a call, the schedule does in the same way when the time has come.
-/
variable {c : Cfg} {w w' : World} {a : AccountId} {n : NFTId}

namespace SelfServe

/-- in a schedule in order, a single due entry is the first -/
theorem first {q : Queue} {now : Block} (hs : q.Pairwise fun x y => x.2 ≤ y.2) (h : Spec.dueBy now q = [n]) :
    ∃ b t, q = (n, b) :: t ∧ b ≤ now ∧ ∀ e ∈ t, now < e.2 := by
  cases q with
  | nil => simp [Spec.dueBy] at h
  | cons x t =>
    obtain ⟨m, b⟩ := x
    by_cases hb : b ≤ now
    · simp only [Spec.dueBy, List.filter_cons, hb, decide_true, if_true, List.map_cons, List.cons.injEq,
        List.map_eq_nil_iff, List.filter_eq_nil_iff, decide_eq_true_eq, Nat.not_le] at h
      obtain ⟨rfl, h⟩ := h
      exact ⟨b, t, rfl, hb, h⟩
    · exfalso
      have : ∀ e ∈ (m, b) :: t, ¬ e.2 ≤ now := by
        intro e he
        rcases List.mem_cons.1 he with rfl | he
        · exact hb
        · have := (List.pairwise_cons.1 hs).1 e he
          simp only at this
          omega
      simp only [Spec.dueBy] at h
      rw [List.filter_eq_nil_iff.2 (by simpa using this)] at h
      simp at h

theorem erase_none {K V : Type} [DecidableEq K] {m : FMap K V} {k : K} (h : m.get k = none) : m.erase k = m := by
  have : ∀ l : List (K × V), FMap.look k l = none → FMap.del k l = l := by
    intro l
    induction l with
    | nil => intro _; rfl
    | cons p t ih =>
      obtain ⟨x, v⟩ := p
      intro hl
      by_cases hx : x = k
      · simp [FMap.look, hx] at hl
      · simp only [FMap.look, hx, if_false] at hl
        simp [FMap.del, hx, ih hl]
  obtain ⟨l, nd⟩ := m
  simp only [FMap.erase, FMap.mk.injEq]
  exact this l h

/-- nothing is due -/
theorem none_due {q : Queue} {now : Block} (h : Spec.dueBy now q = []) : ∀ e ∈ q, now < e.2 := by
  simp only [Spec.dueBy, List.map_eq_nil_iff, List.filter_eq_nil_iff, decide_eq_true_eq, Nat.not_le] at h
  exact h

theorem finish_idle {q : Queue} (h : ∀ e ∈ q, w.now < e.2) (k : Nat) : RentM.finishLoop c w q k = (w, q, k) := by
  cases q with
  | nil => rfl
  | cons e t =>
    obtain ⟨m, z⟩ := e
    have := h (m, z) (by simp)
    simp only at this
    simp only [RentM.finishLoop]
    rw [if_neg (by omega)]

theorem sub_idle {q : Queue} (h : ∀ e ∈ q, w.now < e.2) (k f : Nat) : RentM.subLoop c w q k f = (w, q, k) := by
  cases f with
  | zero => rfl
  | succ f =>
    cases q with
    | nil => rfl
    | cons e t =>
      obtain ⟨m, z⟩ := e
      have := h (m, z) (by simp)
      simp only at this
      simp only [RentM.subLoop]
      rw [if_neg (by omega)]

end SelfServe

/-- **C141, auctions**: when an auction that its creator may end is the only one that is due, the block hook has exactly the
effect of the creator's call: the same payments, owner, refunds, records and events. -/
theorem C141_end (hc : c.Ok) (hr : Reach c w) (hd : Spec.dueBy w.now w.auc.deadlines = [n])
    (h : dispatch c (.auc (.end_ n)) (.signed a) w = .ok w') : step c w .hookAuc = w' := by
  obtain ⟨b, t, hq, hb, ht⟩ := SelfServe.first (C26_sorted hc hr).1 hd
  replace h : AucM.end_ c w a n = .ok w' := h
  simp only [AucM.end_] at h
  inv_ok at h
  obtain ⟨d, x, top, bal, hd, hx, _, _, htop, hp, rfl⟩ := h
  unfold AucM.payForNftExt at hp
  generalize hpp : AucM.payForNft c w n c.aucPot top.2 d x = r at hp
  obtain ⟨b', _ | _⟩ := r
  · simp at hp
  · simp only [Except.ok.injEq] at hp
    subst hp
    have hl : ∀ (v : World) (k : Nat), v.now = w.now → AucM.hookLoop c v t k = (v, t) := by
      intro v k hv
      cases t with
      | nil => rfl
      | cons e t =>
        obtain ⟨m, z⟩ := e
        have := ht (m, z) (by simp)
        simp only at this
        simp only [AucM.hookLoop, hv]
        rw [if_neg (by omega)]
    have hk : ∀ v, AucM.settleOne c w n = (v, true) → v.now = w.now → AucM.hookLoop c w w.auc.deadlines 0 = (v, t) := by
      intro v hv hn
      rw [hq]
      simp only [AucM.hookLoop, hb, if_true, hv]
      split
      · rfl
      · exact hl v 1 hn
    have hs : ∃ v, AucM.settleOne c w n = (v, true) ∧ v.now = w.now ∧
        { v with auc := { v.auc with deadlines := t } } =
          ({ (w.putBal b').putNft n { d with owner := top.1, st := { d.st with listed := false } } with
            auc := { w.auc with
              claims := AucM.addClaims w.auc.claims x.bids.dropLast
              auctions := w.auc.auctions.erase n
              deadlines := w.auc.deadlines.remove n } }).ev (.auctionCompleted n (some top.1) (some top.2)) := by
      simp only [AucM.settleOne, hx, hd, htop, hpp]
      refine ⟨_, rfl, rfl, ?_⟩
      simp [World.ev, World.putNft, World.putBal, hq, Queue.remove]
    obtain ⟨v, h1, h2, h3⟩ := hs
    show AucM.hook c w = _
    unfold AucM.hook
    rw [hk v h1 h2]
    exact h3

/-- an auction of account 1, extended by a late bid of account 5, at its end before the hook has run -/
abbrev overtime : List Op := auctioned ++ blocks 8 ++ [Demo.by_ 5 (.auc (.addBid 0 500))] ++ Demo.ticks 5

-- the creator may end it, it is the only one due, and the hook does the same: account 5 gets the NFT, account 4 its claim
set_option maxRecDepth 20000 in
example : Spec.dueBy (Demo.at_ overtime).now (Demo.at_ overtime).auc.deadlines = [0] ∧
    (∃ w', dispatch Demo.cfg (.auc (.end_ 0)) (.signed 1) (Demo.at_ overtime) = .ok w') ∧
    ((step Demo.cfg (Demo.at_ overtime) .hookAuc).nfts.get 0).map (·.owner) = some 5 ∧
    (step Demo.cfg (Demo.at_ overtime) .hookAuc).auc.claims.get 2 = some 400 :=
  ⟨by decide +kernel, ⟨_, rfl⟩, by decide +kernel, by decide +kernel⟩

set_option maxRecDepth 20000 in
example := C141_end Demo.cfg_ok (Demo.reach overtime (by decide)) (n := 0) (a := 1) (by decide +kernel) rfl

/-- **C141, rentals**: when the offer of an NFT for rent that its renter may cancel is the only thing that is due, the block
hook has exactly the effect of the renter's call, except that it leaves the offers made for the contract where they are. -/
theorem C141_cancel (hc : c.Ok) (hr : Reach c w) (hf : Spec.dueBy w.now w.rent.fixedQ = [])
    (hs : Spec.dueBy w.now w.rent.subQ = []) (ha : Spec.dueBy w.now w.rent.availQ = [n])
    (h : dispatch c (.rent (.cancel n)) (.signed a) w = .ok w') :
    step c w .hookRent = { w' with rent := { w'.rent with offers := w.rent.offers } } := by
  obtain ⟨b, t, hq, hb, ht⟩ := SelfServe.first (C30 hc hr).2.2.1 ha
  replace h : RentM.cancel c w a n = .ok w' := h
  simp only [RentM.cancel] at h
  inv_ok at h
  obtain ⟨k, hk, _, _, h⟩ := h
  rw [hq] at h
  simp only [Queue.remove, if_true] at h
  replace h : (RentM.handleFinished c n).ext (Blind.world t w.rent.fixedQ w.rent.subQ (w.rent.offers.erase n) w) = .ok w' := h
  have he := Blind.handleFinished_keeps c n w
  simp only [Act.ext, (Blind.handleFinished c n).eq w] at h
  generalize hv : RentM.handleFinished c n w = r at h he
  obtain ⟨v, _ | _⟩ := r
  · simp at h
  · simp only [Except.ok.injEq] at h
    subst h
    simp only at he
    have hn : v.now = w.now := by
      have := RentM.handleFinished_now (c := c) w n
      rw [hv] at this
      exact this
    show RentM.hook c w = _
    have hl : RentM.finishLoop c w w.rent.availQ 0 = (v, t, 1) := by
      rw [hq]
      simp only [RentM.finishLoop, hb, if_true, hv]
      split
      · rfl
      · exact SelfServe.finish_idle (by rw [hn]; exact ht) 1
    unfold RentM.hook
    simp only [SelfServe.finish_idle (SelfServe.none_due hf), SelfServe.sub_idle (SelfServe.none_due hs), hl]
    rw [if_pos (by decide), he]
    rfl

/-- With no offers made for it, the two are the same in every respect. -/
theorem C141_cancel_same (hc : c.Ok) (hr : Reach c w) (hf : Spec.dueBy w.now w.rent.fixedQ = [])
    (hs : Spec.dueBy w.now w.rent.subQ = []) (ha : Spec.dueBy w.now w.rent.availQ = [n])
    (ho : w.rent.offers.get n = none)
    (h : dispatch c (.rent (.cancel n)) (.signed a) w = .ok w') : step c w .hookRent = w' := by
  rw [C141_cancel hc hr hf hs ha h]
  replace h : RentM.cancel c w a n = .ok w' := h
  simp only [RentM.cancel] at h
  inv_ok at h
  obtain ⟨k, hk, _, _, h⟩ := h
  rw [SelfServe.erase_none ho] at h
  simp only [Act.ext] at h
  have he := Blind.handleFinished_keeps c n
    { w with rent := { w.rent with availQ := w.rent.availQ.remove n, offers := w.rent.offers } }
  split at h
  · rename_i v hv
    simp only [Except.ok.injEq] at h
    subst h
    rw [hv] at he
    simp only at he
    rw [he]
    rfl
  · simp at h

/-- an NFT offered for rent to whom the renter chooses; account 2 applies; its time is over, and the hook has not run -/
abbrev unclaimed : List Op := choosy ++ [Demo.by_ 2 (.rent (.makeOffer 0 0))] ++ Demo.ticks 20

-- both ways the renter's deposit of 200 comes back, but only the call drops the application of account 2
set_option maxRecDepth 20000 in
example : Spec.dueBy (Demo.at_ unclaimed).now (Demo.at_ unclaimed).rent.availQ = [0] ∧
    (step Demo.cfg (Demo.at_ unclaimed) (Demo.by_ 1 (.rent (.cancel 0)))).rent.offers.get 0 = none ∧
    (step Demo.cfg (Demo.at_ unclaimed) (Demo.by_ 1 (.rent (.cancel 0)))).bal.freeOf 1 =
      (Demo.at_ unclaimed).bal.freeOf 1 + 200 ∧
    (step Demo.cfg (Demo.at_ unclaimed) .hookRent).bal.freeOf 1 = (Demo.at_ unclaimed).bal.freeOf 1 + 200 ∧
    (step Demo.cfg (Demo.at_ unclaimed) .hookRent).rent.offers.get 0 = some [2] := by
  decide +kernel

set_option maxRecDepth 20000 in
example := C141_cancel Demo.cfg_ok (Demo.reach unclaimed (by decide)) (n := 0) (a := 1) (by decide +kernel)
  (by decide +kernel) (by decide +kernel) rfl

set_option maxRecDepth 20000 in
example := C141_cancel_same Demo.cfg_ok (Demo.reach (choosy ++ Demo.ticks 20) (by decide)) (n := 0) (a := 1) (by decide +kernel)
  (by decide +kernel) (by decide +kernel) (by decide +kernel) rfl

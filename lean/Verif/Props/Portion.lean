import Verif.Proofs.Portion
import Verif.Props.Market
import Verif.Props.SelfServe
import Verif.Props.Transmission
import Verif.Props.Config
/-
C144: what a block hook does not depend on how many actions it may do at a time, only when it is done does.
-/
variable {c : Cfg} {w : World}

namespace Portion

theorem idle_of {now : Block} {q : Queue} (h : Spec.dueBy now q = []) : Idle now q := by
  intro x hx hd
  have := SelfServe.none_due h x (List.mem_of_mem_head? hx)
  omega

theorem ready (hc : c.Ok) (hr : Reach c w) : Ready w := by
  intro x hx
  obtain ⟨n, b⟩ := x
  obtain ⟨t, ht, _⟩ := (hr.inv hc).tr.inQ n b (List.mem_of_mem_head? hx)
  have : ∃ d, w.nfts.get n = some d := by
    cases hd : w.nfts.get n with
    | some d => exact ⟨d, rfl⟩
    | none =>
      have := ((hr.inv hc).good n).gone (by simpa [slice] using hd)
      have : (slice w n).tr = none := by rw [this]; rfl
      simp [slice, ht] at this
  obtain ⟨d, hd⟩ := this
  have h : ∃ v, TrM.transmit w n = .ok v := by
    simp only [TrM.transmit, ht, hd]
    exact ⟨_, rfl⟩
  obtain ⟨v, h⟩ := h
  simp only [TrM.hookOne, h]

end Portion

/-- **C144, auctions**: two runs of the auctions' hook in one block, with limits of `i` and `j` actions, do exactly what one
run with a limit of `i + j` does. -/
theorem C144_auctions {i j : Nat} (hi : 0 < i) (hj : 0 < j) (c : Cfg) (w : World) :
    step { c with aucActions := j } (step { c with aucActions := i } w .hookAuc) .hookAuc =
      step { c with aucActions := i + j } w .hookAuc :=
  Portion.auc c i j hi hj w

/-- **C144, auctions, any number of portions**: `m` runs with a limit of `i` are one with a limit of `m * i`. -/
theorem C144_auctions_many {i m : Nat} (hi : 0 < i) (hm : 0 < m) (c : Cfg) (w : World) :
    (fun v => step { c with aucActions := i } v .hookAuc)^[m] w = step { c with aucActions := m * i } w .hookAuc := by
  induction m with
  | zero => omega
  | succ m ih =>
    rcases Nat.eq_zero_or_pos m with rfl | h
    · simp
    · rw [Function.iterate_succ_apply', ih h, C144_auctions (Nat.mul_pos h hi) hi]
      have : m * i + i = (m + 1) * i := by rw [Nat.succ_mul]
      rw [this]

/-- **C144, transmissions**: two runs of the transmissions' hook in one block, with limits of `i` and `j`, do exactly what
one run with a limit of `i + j` does. -/
theorem C144_transmissions {i j : Nat} (hj : 0 < j) (hc : c.Ok) (hi : c.trActions = i) (h0 : 0 < i) (hr : Reach c w) :
    step { c with trActions := j } (step c w .hookTr) .hookTr = step { c with trActions := i + j } w .hookTr := by
  subst hi
  exact Portion.tr c c.trActions j h0 hj (Portion.ready hc hr) (Portion.ready hc (hr.step .hookTr trivial))

/-- **C144, rentals for a fixed time**: the same for the rentals' hook while no subscription period and no offer is due. -/
theorem C144_fixed_partial {i j : Nat} (hi : 0 < i) (hj : 0 < j) (c : Cfg) (hs : Spec.dueBy w.now w.rent.subQ = [])
    (ha : Spec.dueBy w.now w.rent.availQ = []) :
    step { c with rentActions := j } (step { c with rentActions := i } w .hookRent) .hookRent =
      step { c with rentActions := i + j } w .hookRent :=
  Portion.fixed c i j hi hj (Portion.idle_of hs) (Portion.idle_of ha)

/-- **C144, offers for rent**: and while nothing but offers is due. -/
theorem C144_offers_partial {i j : Nat} (hi : 0 < i) (hj : 0 < j) (c : Cfg) (hs : Spec.dueBy w.now w.rent.subQ = [])
    (hf : Spec.dueBy w.now w.rent.fixedQ = []) :
    step { c with rentActions := j } (step { c with rentActions := i } w .hookRent) .hookRent =
      step { c with rentActions := i + j } w .hookRent :=
  Portion.avail c i j hi hj (Portion.idle_of hs) (Portion.idle_of hf)

/-- account 1 offers NFTs 0 and 1 for 10 blocks, taken by account 2, and NFTs 2 and 3, taken by nobody; 20 blocks pass -/
abbrev fourDue : List Op :=
  [Demo.mint1, Demo.mint1, Demo.mint1, Demo.mint1] ++
  (List.range 4).map (fun n => Demo.by_ 1 (.rent (.create n (.fixed 10) (.auto none) true (.tokens 100) (.fixed 200)
    (.flexible 300)))) ++ [Demo.by_ 2 (.rent (.rent 0 0)), Demo.by_ 2 (.rent (.rent 1 0))] ++ Demo.ticks 20

/-- **C144 fails for rentals**: each of the three schedules gets at least one action even when the limit is used up.  With
two contracts and two offers due, one run with a limit of 2 ends both contracts and one offer, two runs with a limit of
1 end all four. -/
theorem C144_fails_rent : ∃ c w, c.Ok ∧ Reach c w ∧
    (step { c with rentActions := 2 } w .hookRent).rent.contracts.get 3 ≠ none ∧
    (step { c with rentActions := 1 } (step { c with rentActions := 1 } w .hookRent) .hookRent).rent.contracts.get 3 = none :=
  ⟨Demo.cfg, Demo.at_ fourDue, Demo.cfg_ok, Demo.reach _ (by decide), by decide +kernel, by decide +kernel⟩

/-- account 1 auctions two NFTs, both until block 10; account 2 bids for both -/
abbrev twoDue : List Op :=
  [Demo.mint1, Demo.mint1, Demo.by_ 3 (.mkt (.create .pub)),
   Demo.by_ 1 (.auc (.create 0 0 0 10 100 none)), Demo.by_ 1 (.auc (.create 1 0 0 10 100 none)),
   Demo.by_ 2 (.auc (.addBid 0 200)), Demo.by_ 2 (.auc (.addBid 1 300))] ++ Demo.ticks 10

-- a limit of 1 settles one auction, a second run the other, and a limit of 2 both
set_option maxRecDepth 20000 in
example : Reach Demo.cfg (Demo.at_ twoDue) ∧
    (step { Demo.cfg with aucActions := 1 } (Demo.at_ twoDue) .hookAuc).auc.auctions.get 0 = none ∧
    (step { Demo.cfg with aucActions := 1 } (Demo.at_ twoDue) .hookAuc).auc.auctions.get 1 ≠ none ∧
    (step { Demo.cfg with aucActions := 2 } (Demo.at_ twoDue) .hookAuc).auc.auctions.get 1 = none ∧
    ((step { Demo.cfg with aucActions := 2 } (Demo.at_ twoDue) .hookAuc).nfts.get 1).map (·.owner) = some 2 :=
  ⟨Demo.reach _ (by decide), by decide +kernel, by decide +kernel, by decide +kernel, by decide +kernel⟩

example := C144_auctions (i := 1) (j := 1) (by decide) (by decide) Demo.cfg (Demo.at_ twoDue)
example := C144_auctions_many (i := 1) (m := 2) (by decide) (by decide) Demo.cfg (Demo.at_ twoDue)

/-- account 1 gives NFTs 0 and 1 to account 2 at block 3 -/
abbrev twoTimed : List Op :=
  [.tick, Demo.mint1, Demo.mint1, Demo.by_ 1 (.tr (.set 0 2 (.atBlock 3) .anytime)),
   Demo.by_ 1 (.tr (.set 1 2 (.atBlock 3) .anytime)), .tick, .tick]

/-- the example with one transmission per block -/
def slow : Cfg := { Demo.cfg with trActions := 1 }

theorem slow_ok : slow.Ok := by constructor <;> decide

theorem slow_reach : Reach slow (run slow Demo.w0 twoTimed) :=
  Demo.reach_of slow rfl twoTimed (by decide)

-- the first run transmits one NFT, the second the other
example : ((step slow (run slow Demo.w0 twoTimed) .hookTr).nfts.get 0).map (·.owner) = some 2 ∧
    ((step slow (run slow Demo.w0 twoTimed) .hookTr).nfts.get 1).map (·.owner) = some 1 ∧
    ((step { slow with trActions := 2 } (run slow Demo.w0 twoTimed) .hookTr).nfts.get 1).map (·.owner) = some 2 := by
  decide +kernel

example := C144_transmissions (j := 1) (by decide) slow_ok rfl (by decide) slow_reach

-- only the two contracts are due, after ten blocks; only the two offers, when nobody took a contract
set_option maxRecDepth 20000 in
example : Spec.dueBy (Demo.at_ (fourDue.take 20)).now (Demo.at_ (fourDue.take 20)).rent.fixedQ = [0, 1] ∧
    Spec.dueBy (Demo.at_ (fourDue.take 8 ++ Demo.ticks 20)).now (Demo.at_ (fourDue.take 8 ++ Demo.ticks 20)).rent.availQ =
      [0, 1, 2, 3] := by
  decide +kernel

set_option maxRecDepth 20000 in
example := C144_fixed_partial (w := Demo.at_ (fourDue.take 20)) (i := 1) (j := 1) (by decide) (by decide) Demo.cfg
  (by decide +kernel) (by decide +kernel)

set_option maxRecDepth 20000 in
example := C144_offers_partial (w := Demo.at_ (fourDue.take 8 ++ Demo.ticks 20)) (i := 1) (j := 2) (by decide) (by decide)
  Demo.cfg (by decide +kernel) (by decide +kernel)

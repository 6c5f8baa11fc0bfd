import Verif.Proofs.BridgeBooks
import Verif.Props.Demo
/-
C89: who sees only the events of the bridge knows its chains, nonces, relayers, threshold and fee, and how often each
relayer voted and each nonce was approved, but not for whom and how much.
-/
open Spec

variable {c : Cfg} {w : World}

/-- C89: who knows the bridge's books at some time, and reads all events from then on, knows them later.
Missing: recipients and amounts of the votes, see `C89_fails`. -/
theorem C89_partial (ops : List Op) (ho : ∀ o ∈ ops, o.Ok c) :
    bridgeBooks (run c w ops) = (brHistory c w ops).foldl entry (bridgeBooks w) := by
  induction ops generalizing w with
  | nil => rfl
  | cons o t ih =>
    rw [run, brHistory, List.foldl_append, ← step_booked o (ho o (List.mem_cons_self ..))]
    exact ih fun x hx => ho x (List.mem_cons_of_mem _ hx)

-- a transfer that is minted, and a deposit
example := C89_partial (c := Demo.cfg) (w := Demo.w0)
  [.call .root (.ext (.addChain 1)), .call .ext (.ext (.setRelayers [2, 3])), Demo.by_ 2 (.br (.vote 1 ⟨4, 7, 700⟩)),
    Demo.by_ 3 (.br (.vote 1 ⟨4, 7, 700⟩)), Demo.by_ 1 (.br (.deposit 100 [9] 1))] (by decide)

/-- C89: in particular the number of approved transfers of each nonce is the number of `ProposalApproved` events. -/
theorem C89_minted (hg : Genesis c w) (ops : List Op) (ho : ∀ o ∈ ops, o.Ok c) (k : ChainId) (n : Nat) :
    (bridgeBooks (run c w ops)).minted k n = (brHistory c w ops).count (.proposalApproved k n) := by
  rw [C89_partial ops ho]
  have h0 : (bridgeBooks w).minted k n = 0 := by simp [bridgeBooks, hg.br.2]
  have key : ∀ (l : List BrEvent) (b : BridgeBooks),
      (l.foldl entry b).minted k n = b.minted k n + l.count (.proposalApproved k n) := by
    intro l
    induction l with
    | nil => intro b; rfl
    | cons e t ih =>
      intro b
      rw [List.foldl_cons, ih, List.count_cons]
      cases e <;> simp [entry]
      case proposalApproved j m =>
        by_cases g : k = j <;> by_cases g' : n = m <;> simp_all [eq_comm] <;> omega
  rw [key, h0, Nat.zero_add]

/-- Recipient and amount of a transfer into the chain are not told: here two histories have the same events, but in one
account 7 gets 700, in the other account 8 gets 5. -/
theorem C89_fails : ∃ l l' : List Op, (∀ o ∈ l, o.Ok Demo.cfg) ∧ (∀ o ∈ l', o.Ok Demo.cfg) ∧
    brHistory Demo.cfg Demo.w0 l = brHistory Demo.cfg Demo.w0 l' ∧
    BrEvent.proposalApproved 1 4 ∈ brHistory Demo.cfg Demo.w0 l ∧
    (run Demo.cfg Demo.w0 l).bal.freeOf 7 = Demo.w0.bal.freeOf 7 + 700 ∧
    (run Demo.cfg Demo.w0 l).bal.freeOf 8 = Demo.w0.bal.freeOf 8 ∧
    (run Demo.cfg Demo.w0 l').bal.freeOf 7 = Demo.w0.bal.freeOf 7 ∧
    (run Demo.cfg Demo.w0 l').bal.freeOf 8 = Demo.w0.bal.freeOf 8 + 5 :=
  let ops (t : Transfer) : List Op :=
    [.call .root (.ext (.addChain 1)), .call .ext (.ext (.setRelayers [2, 3])), .call .root (.ext (.setThreshold 2)),
     Demo.by_ 2 (.br (.vote 1 t)), Demo.by_ 3 (.br (.vote 1 t))]
  ⟨ops ⟨4, 7, 700⟩, ops ⟨4, 8, 5⟩, by decide, by decide, by decide, by decide, by decide, by decide, by decide, by decide⟩

/-- a history with everything in it, and what the events alone say about it -/
example :
    let l : List Op := [.call .root (.ext (.addChain 1)), .call .ext (.ext (.setRelayers [2, 3])),
      .call .root (.ext (.setThreshold 2)), Demo.by_ 2 (.br (.vote 1 ⟨4, 7, 700⟩)), Demo.by_ 2 (.br (.vote 1 ⟨4, 8, 5⟩)),
      Demo.by_ 3 (.br (.vote 1 ⟨4, 7, 700⟩)), Demo.by_ 1 (.br (.deposit 100 [9] 1)),
      .call .ext (.mandate (.ext (.setFee 6))), .call .root (.mandate (.ext (.setThreshold 0))),
      .call .root (.ext (.setExtra 40))]
    (∀ o ∈ l, o.Ok Demo.cfg) ∧
    let b := (brHistory Demo.cfg Demo.w0 l).foldl entry (bridgeBooks Demo.w0)
    b.nonce 1 = some 1 ∧ b.nonce 2 = none ∧ b.relayers = [2, 3] ∧ b.threshold = 2 ∧ b.fee = 6 ∧ b.extra = 40 ∧
    b.votes 1 4 2 = 2 ∧ b.votes 1 4 3 = 1 ∧ b.minted 1 4 = 1 ∧
    (brHistory Demo.cfg Demo.w0 l).drop 8 = [.feeUpdated 6, .rootOp true, .rootOp false, .extraChanged 40] := by decide

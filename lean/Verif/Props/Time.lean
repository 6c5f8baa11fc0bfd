import Verif.Proofs.Time
import Verif.Props.Demo
/-
C114: time matters only to the calls about time, and passes without effect when nothing is due.
-/
open Spec

variable {c : Cfg} {w : World}

/-- C114: a call that is not about dates does the same at every block: it fails with the same error, or leads to the same
state. -/
theorem C114_calls (c : Cfg) (x : Call) (o : Origin) (w : World) (b : Block) (h : Timed x = false) :
    dispatch c x o (atBlock b w) = (dispatch c x o w).map (atBlock b) :=
  at_dispatch b c w x o h

/-- Any number of blocks in which nothing falls due, with what the pallets do at the start of each, in any order, changes
nothing but the block number. -/
theorem C114_wait (ht : Tidy c w) (l : List Op) (hl : ∀ o ∈ l, IsBlock o = true) (hq : Quiet w (w.now + blocks l)) :
    run c w l = atBlock (w.now + blocks l) w :=
  wait_run ht l hl w.now hq

/-- So a call that is not about dates can as well wait: made after such blocks, it has the same effect as before them. -/
theorem C114_delay (ht : Tidy c w) (l : List Op) (hl : ∀ o ∈ l, IsBlock o = true) (hq : Quiet w (w.now + blocks l))
    (x : Call) (o : Origin) (h : Timed x = false) :
    dispatch c x o (run c w l) = (dispatch c x o w).map (atBlock (w.now + blocks l)) := by
  rw [C114_wait ht l hl hq, C114_calls c x o w _ h]

/-- The TEE history needs tidying once per era at most: after the start of a block, nothing is left to remove in that era. -/
theorem C114_tidy (c : Cfg) (w : World) : Tidy c (step c w .hookTee) := hook_tidy c w

/-- At any state after the start of a block in which nothing is overdue, running the hooks of that block again changes
nothing. -/
theorem C114_again (l : List Op) (hl : ∀ o ∈ l, IsBlock o = true) (h0 : blocks l = 0)
    (hq : Quiet (step c w .hookTee) w.now) :
    run c (step c w .hookTee) l = step c w .hookTee := by
  have hn : (step c w .hookTee).now = w.now := by
    simp only [step, TeeM.hook]
    split
    · rfl
    · split <;> rfl
  have := C114_wait (C114_tidy c w) l hl (by rw [h0, hn]; exact hq)
  rw [this, h0]
  rfl

/-- NFT 0 is up for auction until block 13, NFT 1 will be given away at block 12, NFT 2 is offered for rent until block 20. -/
abbrev Demo.scheduled : List Op :=
  Demo.enclaves ++ [Demo.mint1, Demo.mint1, Demo.mint1, Demo.mint1, Demo.by_ 1 (.mkt (.create .pub)),
   Demo.by_ 1 (.auc (.create 0 0 1 13 100 none)),
   Demo.by_ 1 (.tr (.set 1 3 (.atBlock 12) .none)),
   Demo.by_ 1 (.rent (.create 2 (.fixed 30) (.auto none) true (.tokens 100) (.fixed 20) (.fixed 30)))]

/-- For eleven blocks nothing is due: account 1 can give NFT 3 away now or then. -/
example :
    let w := Demo.at_ Demo.scheduled
    let l := (List.replicate 11 [Op.tick, .hookAuc, .hookRent, .hookTr, .hookTee]).flatten
    run Demo.cfg w l = atBlock 11 w ∧
      (dispatch Demo.cfg (.nft (.transferNft 3 2)) (.signed 1) w).isOk = true ∧
      dispatch Demo.cfg (.nft (.transferNft 3 2)) (.signed 1) (run Demo.cfg w l) =
        (dispatch Demo.cfg (.nft (.transferNft 3 2)) (.signed 1) w).map (atBlock 11) ∧
      w.auc.deadlines = [(0, 13)] ∧ w.tr.queue = [(1, 12)] ∧ w.rent.availQ = [(2, 20)] := by
  have hq : Quiet (Demo.at_ Demo.scheduled)
      ((Demo.at_ Demo.scheduled).now + blocks (List.replicate 11 [Op.tick, .hookAuc, .hookRent, .hookTr, .hookTee]).flatten) := by
    decide +kernel
  have ht : Tidy Demo.cfg (Demo.at_ Demo.scheduled) := by
    intro e _ x _
    have h1 : (Demo.at_ Demo.scheduled).tee.claimed = .empty := rfl
    have h2 : (Demo.at_ Demo.scheduled).tee.reports = .empty := rfl
    rw [h1, h2]
    exact ⟨rfl, rfl⟩
  have hl : ∀ o ∈ (List.replicate 11 [Op.tick, .hookAuc, .hookRent, .hookTr, .hookTee]).flatten, IsBlock o = true := by
    decide
  exact ⟨C114_wait ht _ hl hq, by decide +kernel, C114_delay ht _ hl hq _ _ rfl, by decide +kernel, by decide +kernel, by decide +kernel⟩

/-- One block later the transmission is due and is made, so the blocks do have an effect. -/
example :
    let w := Demo.at_ (Demo.scheduled ++ Demo.ticks 12)
    (w.nfts.get 1).map (·.owner) = some 1 ∧ ((step Demo.cfg w .hookTr).nfts.get 1).map (·.owner) = some 3 := by
  decide +kernel

/-- The calls about dates do depend on the block: accepted at one block and refused at another, or noting the block down. -/
example :
    let w := Demo.at_ Demo.scheduled
    let ok := fun b a x => (dispatch Demo.cfg x (.signed a) (atBlock b w)).isOk
    (ok 1 1 (.auc (.create 3 0 1 13 100 none)) = true ∧ ok 2 1 (.auc (.create 3 0 1 13 100 none)) = false) ∧
      (ok 0 1 (.auc (.cancel 0)) = true ∧ ok 1 1 (.auc (.cancel 0)) = false) ∧
      (ok 0 2 (.auc (.addBid 0 200)) = false ∧ ok 1 2 (.auc (.addBid 0 200)) = true) ∧
      (ok 0 1 (.tr (.set 3 2 (.atBlock 5) .none)) = true ∧ ok 5 1 (.tr (.set 3 2 (.atBlock 5) .none)) = false) := by
  decide +kernel

/-- … among them are renting, which notes down when it began, and unregistering an enclave, which starts the unbonding. -/
example :
    let w := Demo.at_ Demo.scheduled
    ((step Demo.cfg (atBlock 3 w) (Demo.by_ 2 (.rent (.rent 2 0)))).rent.contracts.get 2).map (·.start) = some (some 3) ∧
      ((step Demo.cfg (atBlock 4 w) (Demo.by_ 2 (.rent (.rent 2 0)))).rent.contracts.get 2).map (·.start) = some (some 4) ∧
      Timed (.rent (.rent 2 0)) = true ∧ Timed (.mandate (.tee .withdraw)) = true ∧ Timed (.rent (.cancel 2)) = false := by
  decide +kernel

/-- Running the hooks of a block twice. -/
example : run Demo.cfg (step Demo.cfg (Demo.at_ Demo.scheduled) .hookTee) [.hookTr, .hookAuc, .hookRent, .hookTee, .hookTr] =
    step Demo.cfg (Demo.at_ Demo.scheduled) .hookTee :=
  C114_again _ (by decide) (by decide) (by decide +kernel)

import Verif.Proofs.Observe
/-
C84: who sees only the events knows everything the chain stores about NFTs, collections, marketplaces, sales, auctions,
rent contracts and transmissions.
-/
open Spec

variable {c : Cfg} {w : World}

/-- Who knows what is stored at some time, and reads all events from then on, knows what is stored later. -/
theorem C84_events_keep_the_books (hc : c.Ok) (hr : Reach c w) (ops : List Op) (ho : ∀ o ∈ ops, o.Ok c) :
    truth (run c w ops) = books c.rentPot c.grace (truth w) (history c w ops) := by
  induction ops generalizing w with
  | nil => rfl
  | cons o t ih =>
    rw [run, history, books_append, books_map, ← step_seen hc hr o (ho o (List.mem_cons_self ..))]
    exact ih (.step o hr (ho o (List.mem_cons_self ..))) fun x hx => ho x (List.mem_cons_of_mem _ hx)

/-- Who has read all events since the beginning, and nothing else, knows every NFT with its owner, data, royalty and flags,
every delegation, secret, capsule, collection, marketplace, sale, auction with its bids, claim, contract, offer, transmission
and consent. -/
theorem C84_events_tell_everything (hc : c.Ok) (hg : Genesis c w) (ops : List Op) (ho : ∀ o ∈ ops, o.Ok c) :
    truth (run c w ops) = books c.rentPot c.grace .nothing (history c w ops) := by
  rw [C84_events_keep_the_books hc (.init hg) ops ho]
  congr 1
  obtain ⟨_, _, h1, h2, h3, _, h4, _⟩ := hg.nft
  apply View.ext <;> funext m <;>
    simp [truth, View.nothing, hg.nfts, h1, h2, h3, h4, hg.mkt.2.1, hg.mkt.2.2, hg.auc.1, hg.auc.2.2.1, hg.rent.1,
      hg.rent.2.2.2.2, hg.tr.1, hg.tr.2.1]

/-- a run with a sale, an auction that is won, a rent and a transmission -/
def Demo.busy : List Op := open Demo in
  [mint1, mint1, mint1, mint1,
   by_ 3 (.mkt (.create .pub)), by_ 1 (.mkt (.list 0 0 100)), by_ 2 (.mkt (.buy 0 100)),
   by_ 1 (.auc (.create 1 0 0 6 50 none)), by_ 4 (.auc (.addBid 1 60)), by_ 5 (.auc (.addBid 1 70)),
   by_ 1 (.rent (.create 2 (.fixed 3) (.auto none) false (.tokens 10) .none .none)), by_ 6 (.rent (.rent 2 0)),
   by_ 1 (.tr (.set 3 7 (.atBlock 4) .none))] ++ ticks 6 ++ [.hookAuc, .hookRent, .hookTr]

/-- what the events alone say about it -/
example :
    (∀ o ∈ Demo.busy, o.Ok Demo.cfg) ∧
    let v := books 102 5 .nothing (history Demo.cfg Demo.w0 Demo.busy)
    (v.nft 0).map (·.owner) = some 2 ∧ (v.nft 1).map (·.owner) = some 5 ∧ v.claim 4 = 60 ∧
    v.contract 2 = none ∧ (v.nft 3).map (·.owner) = some 7 := by decide

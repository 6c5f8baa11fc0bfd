import Verif.Proofs.Fault
import Verif.Props.FaultCases
/-
C121: which declared errors can be met.
-/
open Spec Spec.Fault

variable {c : Cfg} {w : World}

/-- C121, what a caller may be answered: a refused call of a pallet is answered with an error that pallet declares, and
none of the idle ones, or with one of the five common errors of the balances pallet and the dispatcher. -/
theorem C121_only (hc : c.Ok) (hr : Reach c w) {x : Call} {o : Origin} {p : Pallet} {s : String}
    (ho : ∀ a, o = .signed a → ¬ c.pot a) (he : Encodable c x) (hp : palletOf x = some p)
    (h : dispatch c x o w = .error (.e s)) : (s ∈ declared p ∧ s ∉ idle p) ∨ s ∈ common :=
  states_known he hp (C117_partial hc hr ho h)

/-- C121: a declared error is met by some caller, on some chain with some history, exactly if it is not one of the
seventeen idle ones. -/
theorem C121 {p : Pallet} {s : String} (hs : s ∈ declared p) : Met p s ↔ s ∉ idle p := by
  constructor
  · rintro ⟨c, w, o, x, hc, hr, ho, he, hp, h⟩
    rcases C121_only hc hr ho he hp h with h | h
    · exact h.2
    · intro hi
      have : ∀ p, ∀ s ∈ common, s ∉ idle p := by intro p; cases p <;> decide +kernel
      exact this p s h hi
  · intro hi
    have h := List.all_eq_true.1 (FaultCases.all_there p) s hs
    simp only [Bool.or_eq_true, decide_eq_true_eq] at h
    rcases h with h | h
    · exact absurd h hi
    · obtain ⟨k, hk, rfl⟩ := List.mem_map.1 h
      exact FaultCases.Case.met (List.all_eq_true.1 (FaultCases.all_good p) k hk)

/-- So no history leads to a chain that answers a call with an idle error. -/
theorem C121_never (hc : c.Ok) (hr : Reach c w) {x : Call} {o : Origin} {p : Pallet} {s : String}
    (ho : ∀ a, o = .signed a → ¬ c.pot a) (he : Encodable c x) (hp : palletOf x = some p) (hs : s ∈ declared p)
    (hi : s ∈ idle p) : dispatch c x o w ≠ .error (.e s) :=
  fun h => (C121 hs).1 ⟨c, w, o, x, hc, hr, ho, he, hp, h⟩ hi

/-- the hypotheses are met: after its creator gave a soulbound NFT away, the new owner is refused -/
example : Met .nft "CannotTransferNotCreatedSoulboundNFTs" :=
  (C121 (by decide +kernel)).2 (by decide +kernel)

example : (dispatch Demo.cfg (.nft (.transferNft 0 1)) (.signed 2) (Demo.at_ FaultCases.bound)) =
    .error (.e "CannotTransferNotCreatedSoulboundNFTs") := rfl

/-- an idle error -/
example : ¬ Met .auction "MaximumBidLimitReached" := fun h => (C121 (by decide +kernel)).1 h (by decide +kernel)

/-- there are seventeen of them -/
example : ([Pallet.nft, .marketplace, .auction, .rent, .transmission, .tee, .bridge].map fun p => (idle p).length).sum = 17 :=
  by decide

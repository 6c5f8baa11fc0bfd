import Verif.Props.PriceSpec
import Verif.Proofs.Cash
import Verif.Proofs.RentStep
/-
What calls cost their senders, from the payments their events stand for.
-/
open Spec

variable {c : Cfg} {w w' : World} {a : AccountId}

theorem Spec.Paying.cost {b b' : Bal} {l : List Payment} (h : Paying c b b' l) (ha : ¬ c.pot a) {p : Balance}
    (hp : outgo a l ≤ p) : b.freeOf a ≤ b'.freeOf a + p := by
  have := h.free a (fun e => ha (e ▸ Cfg.pot_auc)) (fun e => ha (e ▸ Cfg.pot_rent))
  omega

theorem Spec.outgo_cons (x : AccountId) (p : Payment) (l : List Payment) :
    outgo x (p :: l) = (if p.payer = x then p.amount else 0) + outgo x l := by
  by_cases h : p.payer = x <;> simp [outgo, h]

theorem Spec.outgo_nil (x : AccountId) : outgo x [] = 0 := rfl

/-- all payments that are not by `a` -/
theorem Spec.outgo_other {l : List Payment} (h : ∀ p ∈ l, p.payer ≠ a) : outgo a l = 0 := by
  induction l with
  | nil => rfl
  | cons p l ih => rw [outgo_cons, if_neg (h p (by simp)), ih fun q hq => h q (by simp [hq])]

theorem NftM.cost {x p} (hx : named (params w) a (.nft x) = some p) :
    outgo a (bill c w (emit c w a x)) ≤ p := by
  have secret : ∀ v n s, outgo a (payments c.aucPot c.rentPot w.now (tariff w) v (.secretAdded n s)) ≤ w.nft.secretFee := by
    intro v n s
    simp only [payments]
    cases v.nft n with
    | none => simp [outgo]
    | some d => simp only [Option.elim, outgo_cons, outgo_nil]; split <;> simp [tariff]
  have capsule : ∀ v n s, outgo a (payments c.aucPot c.rentPot w.now (tariff w) v (.toCapsule n s)) ≤ w.nft.capsuleFee := by
    intro v n s
    simp only [payments]
    cases v.nft n with
    | none => simp [outgo]
    | some d => simp only [Option.elim, outgo_cons, outgo_nil]; split <;> simp [tariff]
  cases x <;> simp only [named, Option.some.injEq] at hx <;> subst hx <;> simp only [emit]
  case createNft => simp [bill, ledger, payments, outgo, params]
  case addSecret n s => simpa [bill, ledger, params] using secret _ n s
  case toCapsule n s => simpa [bill, ledger, params] using capsule _ n s
  case createSecret =>
    simp only [bill, ledger, List.map_cons, List.map_nil, List.append_nil]
    rw [show payments c.aucPot c.rentPot w.now (tariff w) (truth w)
      (.nftCreated w.nft.nextNft a _ _ _ _ w.nft.fee) = [⟨a, none, w.nft.fee⟩] from rfl, List.singleton_append, outgo_cons,
      if_pos rfl]
    exact Nat.add_le_add_left (secret _ _ _) _
  case createCapsule =>
    simp only [bill, ledger, List.map_cons, List.map_nil, List.append_nil]
    rw [show payments c.aucPot c.rentPot w.now (tariff w) (truth w)
      (.nftCreated w.nft.nextNft a _ _ _ _ w.nft.fee) = [⟨a, none, w.nft.fee⟩] from rfl, List.singleton_append, outgo_cons,
      if_pos rfl]
    exact Nat.add_le_add_left (capsule _ _ _) _
  case addSecretShard => split <;> simp [bill, ledger, payments, outgo]
  case addCapsuleShard => split <;> simp [bill, ledger, payments, outgo]
  all_goals simp [bill, ledger, payments, outgo]

theorem MktM.cost {x p} (hx : named (params w) a (.mkt x) = some p) (h : call c w a x = .ok w') :
    outgo a (bill c w (emit w a x)) ≤ p := by
  cases x <;> simp only [named, Option.some.injEq, reduceCtorEq] at hx <;> subst hx <;> simp only [emit]
  case create => simp [bill, ledger, payments, outgo, params, tariff]
  case buy n p =>
    simp only [call, buy] at h; inv_ok at h
    obtain ⟨d, s, k, b1, b2, b3, hd, hs, hk, _, hp, _, h1, h2, h3, h4, _, rfl⟩ := h
    have e1 : (truth w).nft n = some d := hd
    have e2 : (truth w).mkt s.mkt = some k := hk
    have e3 : (truth w).sale n = some s := hs
    simp only [hd, hs, bill, ledger, List.map_cons, List.map_nil, payments, e1, e2, e3, List.append_nil, outgo_cons,
      outgo_nil, if_true]
    omega
  all_goals simp [bill, ledger, payments, outgo]

theorem AucM.cost (hc : c.Ok) (hr : Reach c w) (ha : ¬ c.pot a) {x p} (hx : named (params w) a (.auc x) = some p)
    (h : call c w a x = .ok w') : outgo a (bill c w (emit c w a x)) ≤ p := by
  have hpot : c.aucPot ≠ a := fun e => ha (e ▸ Cfg.pot_auc)
  have hi := hr.auc hc
  cases call_act h with
  | create => simp [emit, bill, ledger, payments, outgo]
  | cancel => simp [emit, bill, ledger, payments, outgo]
  | @end_ n d x top b hd hx' h1 h2 h3 h4 =>
    obtain ⟨k, f, hk, hf, hp⟩ := pay_paid h4
    have e1 : (truth w).nft n = some d := hd
    have e2 : (truth w).auction n = some x := hx'
    have e3 : (truth w).mkt x.mkt = some k := hk
    simp only [emit, hx', h3, Option.bind_some, soldEvent, hd, hf, bill, ledger, List.map_cons, List.map_nil, payments, e1,
      e2, e3, Option.elim, Prod.mk.eta, if_pos (List.mem_of_getLast? h3), List.append_nil, outgo_cons, outgo_nil,
      if_neg hpot]
    omega
  | @addBid n v x b dr l q =>
    simp only [named, Option.some.injEq] at hx
    subst hx
    simp only [emit, droppedEvent]
    have one : ∀ v', outgo a (payments c.aucPot c.rentPot w.now (tariff w) v' (.bidAdded n a v)) ≤ v := by
      intro v'
      simp only [payments, outgo_cons, outgo_nil, if_true]
      omega
    split
    · simpa [bill, ledger] using one _
    · split
      · simp only [List.singleton_append, bill, ledger, List.map_cons, List.map_nil, List.append_nil]
        exact one _
      · simpa [bill, ledger] using one _
  | @removeBid n x v b => simp [emit, bill, ledger, payments, outgo, hpot]
  | @buyItNow n p d x b hd hx' h1 h2 h3 h4 h5 =>
    simp only [named, Option.some.injEq] at hx
    subst hx
    obtain ⟨k, f, hk, hf, hp⟩ := pay_paid h5
    have e1 : (truth w).nft n = some d := hd
    have e2 : (truth w).auction n = some x := hx'
    have e3 : (truth w).mkt x.mkt = some k := hk
    have ok := hi.ok n x hx'
    have fit := ok.cuts (Nat.le_of_lt (ok.buy p (by simp [*]))) hf
    have fit2 := d.royalty.mul_le (p - MktM.feeOnOpt p f)
    simp only [emit, soldEvent, hd, hf, bill, ledger, List.map_cons, List.map_nil, payments, e1,
      e2, e3, Option.elim, List.append_nil, outgo_cons, outgo_nil, cuts]
    have le : ∀ (q : Prop) [Decidable q] (v : Balance), (if q then v else 0) ≤ v := by intro q _ v; split <;> omega
    refine Nat.le_trans (Nat.add_le_add (le _ _) (Nat.add_le_add (le _ _) (Nat.add_le_add (le _ _) (Nat.le_refl 0)))) ?_
    omega
  | claim => simp [emit, bill, ledger, payments, outgo, hpot]

theorem TrM.cost {x p} (hx : named (params w) a (.tr x) = some p) : outgo a (bill c w (emit w a x)) ≤ p := by
  cases x <;> simp only [named, Option.some.injEq] at hx <;> subst hx <;> simp only [emit]
  case set n r q k =>
    simp only [bill, ledger, List.map_cons, List.map_nil, List.append_nil, payments]
    cases (truth w).nft n with
    | none => simp [outgo]
    | some d =>
      simp only [Option.elim, outgo_cons, outgo_nil]
      have : (tariff w).protocol q = Spec.askedFor (params w) q := by cases q <;> rfl
      split <;> omega
  case addConsent =>
    split
    · split <;> simp [bill, ledger, payments, outgo]
    · simp [bill, ledger, payments, outgo]
  all_goals simp [bill, ledger, payments, outgo]

theorem RentM.cost (ha : ¬ c.pot a) {x p} (hx : named (params w) a (.rent x) = some p) :
    outgo a (bill c w (emit c a x)) ≤ p := by
  have hpot : c.rentPot ≠ a := fun e => ha (e ▸ Cfg.pot_rent)
  cases x <;> simp only [named, Option.some.injEq, reduceCtorEq] at hx <;> (try subst hx) <;> simp only [emit]
  case create => simp [bill, ledger, payments, outgo]
  case cancel n =>
    simp only [bill, ledger, List.map_cons, List.map_nil, List.append_nil, payments]
    cases (truth w).contract n with
    | none => simp [outgo]
    | some k =>
      simp only [Option.elim, givenBack, outgo_cons, if_neg hpot]
      cases k.rentee <;> simp [outgo, hpot]
  case revoke n =>
    simp only [bill, ledger, List.map_cons, List.map_nil, List.append_nil, payments]
    cases (truth w).contract n with
    | none => simp [outgo]
    | some k => simp [outgo_cons, outgo_nil, hpot]
  case acceptOffer n r =>
    split at hx
    · simp at hx
    · rename_i hne
      simp only [bill, ledger, List.map_cons, List.map_nil, List.append_nil, payments]
      cases (truth w).contract n with
      | none => simp [outgo]
      | some k => simp [outgo_cons, outgo_nil, hne]
  all_goals simp [bill, ledger, payments, outgo]

import Verif.Proofs.HookApart
import Verif.Props.Scope
import Verif.Props.Auction
import Verif.Props.Rent
/-
C109: the order in which the pallets' hooks run at the start of a block.
-/
open Spec
variable {c : Cfg} {w : World}

/- demo chains -/

/-- An auction by account 2, a subscription of account `r` to NFT 0 of account 1 and a transmission by account 7 all
come due at block 10. -/
abbrev dueTogether (r : AccountId) : List Op :=
  [Demo.mint1, Demo.by_ 2 (.nft (.createNft [1] .zero none false)), Demo.by_ 7 (.nft (.createNft [1] .zero none false)),
   Demo.by_ 3 (.mkt (.create .pub)), Demo.by_ 2 (.auc (.create 1 0 0 10 100 none)), Demo.by_ 4 (.auc (.addBid 1 3000)),
   Demo.by_ 1 (.rent (.create 0 (.sub 10 (some 50) true) (.auto none) true (.tokens 5500) (.fixed 200) (.fixed 300))),
   Demo.by_ r (.rent (.rent 0 0)), Demo.by_ 7 (.tr (.set 2 8 (.atBlock 10) .anytime))] ++ Demo.ticks 10

/-- **The hooks of transmissions and enclaves may run at any place.**  Two orders of running the hooks of the four
pallets, each any number of times, lead to the same state if the hooks of auctions and rentals come in the same
order. -/
theorem C109_partial (hc : c.Ok) (hr : Reach c w) {l l' : List Hook} (hp : l.Perm l')
    (ho : l.filter Hook.money = l'.filter Hook.money) : SameState (hooks c w l) (hooks c w l') := by
  refine (canon_same hc hr l).trans (SameState.trans ?_ (canon_same hc hr l').symm)
  have e : canon l = canon l' := by
    have rep : ∀ (k : Hook), l.filter (· = k) = l'.filter (· = k) := by
      intro k
      have h1 : ∀ t : List Hook, t.filter (· = k) = List.replicate (t.filter (· = k)).length k := fun t =>
        List.eq_replicate_of_mem fun x hx => by simpa using (List.mem_filter.1 hx).2
      rw [h1 l, h1 l', (hp.filter _).length_eq]
    simp only [canon, ho, rep]
  rw [e]
  exact .refl _

-- an auction, a subscription and a transmission are due; the hook of transmissions comes first or last
example := C109_partial Demo.cfg_ok (Demo.reach (dueTogether 6) (by decide))
  (l := [.auction, .rent, .transmission]) (l' := [.transmission, .auction, .rent]) (by decide) (by decide)

/-- **Auctions and rentals that share no account do not meet either.**  If no account that is paid by an auction which
comes due is party to a rental that comes due, all orders of the four hooks lead to the same state. -/
theorem C109_apart (hc : c.Ok) (hr : Reach c w)
    (ha : ∀ a, Item.account a ∈ hookUses c w .auction → Item.account a ∉ hookUses c w .rent)
    {l l' : List Hook} (hp : l.Perm l') (hn : l.Nodup) : SameState (hooks c w l) (hooks c w l') := by
  by_cases ho : l.filter Hook.money = l'.filter Hook.money
  · exact C109_partial hc hr hp ho
  have hs := swap_same hr (apart_of hc hr (j := .auction) (k := .rent) (by decide) ha)
  -- the only other order of the two
  have two : ∀ m m' : List Hook, m.Perm m' → m.Nodup → (∀ x ∈ m, x.money = true) → m ≠ m' →
      (m = [.auction, .rent] ∧ m' = [.rent, .auction]) ∨ (m = [.rent, .auction] ∧ m' = [.auction, .rent]) := by
    intro m m' hp hn hm hne
    match m with
    | [] => exact absurd hp.nil_eq hne
    | [x] => exact absurd (List.perm_singleton.1 hp.symm).symm hne
    | [x, y] =>
      have h1 := hm x (by simp); have h2 := hm y (by simp)
      have hl := hp.length_eq
      match m' with
      | [u, v] =>
        have h3 := hm u (hp.mem_iff.2 (by simp)); have h4 := hm v (hp.mem_iff.2 (by simp))
        have hn' := hp.nodup_iff.1 hn
        cases x <;> cases y <;> cases u <;> cases v <;> simp_all [Hook.money]
      | [] | [_] | _ :: _ :: _ :: _ => simp at hl
    | x :: y :: z :: t =>
      have h1 := hm x (by simp); have h2 := hm y (by simp); have h3 := hm z (by simp)
      cases x <;> cases y <;> cases z <;> simp_all [Hook.money]
  have e := two _ _ (hp.filter Hook.money) (hn.filter _) (fun x hx => (List.mem_filter.1 hx).2) ho
  -- the rest of the hooks comes in the same order
  have key : SameState (hooks c w (canon l)) (hooks c w (l'.filter Hook.money ++
      (l.filter (· = .transmission) ++ l.filter (· = .tee)))) := by
    simp only [canon, hooks_append]
    rcases e with ⟨e1, e2⟩ | ⟨e1, e2⟩ <;> rw [e1, e2]
    · exact (SameState.hooks hs _).hooks _
    · exact (SameState.hooks hs.symm _).hooks _
  refine (canon_same hc hr l).trans (key.trans ?_)
  refine C109_partial hc hr ?_ ?_
  · have h1 : ((l'.filter Hook.money) ++ (l.filter (· = .transmission) ++ l.filter (· = .tee))).Perm
        (canon l') := (List.Perm.refl _).append ((hp.filter _).append (hp.filter _))
    refine h1.trans ?_
    have : ∀ t : List Hook, (canon t).Perm t := by
      intro t
      induction t with
      | nil => exact .refl _
      | cons x t ih =>
        cases x with
        | auction => exact ih.cons _
        | rent => exact ih.cons _
        | transmission => exact List.perm_middle.trans (ih.cons _)
        | tee =>
          have : canon (.tee :: t) = (t.filter Hook.money ++ t.filter (· = .transmission)) ++ .tee :: t.filter (· = .tee) := by
            simp [canon, Hook.money]
          rw [this]
          refine List.perm_middle.trans (List.Perm.cons _ ?_)
          simpa [canon] using ih
    exact this l'
  · simp only [List.filter_append, List.filter_filter]
    have : ∀ k : Hook, k.money = false → l.filter (fun x => x.money && decide (x = k)) = [] := by
      intro k hk
      refine List.filter_eq_nil_iff.2 fun x _ => ?_
      by_cases e : x = k <;> simp [e, hk]
    rw [this _ rfl, this _ rfl]
    simp

-- the parties of the auction and of the subscription are different; the three hooks are reversed
example := C109_apart Demo.cfg_ok (Demo.reach (dueTogether 6) (by decide))
  (fun a => (show ∀ i ∈ hookUses Demo.cfg (Demo.at_ (dueTogether 6)) .auction,
    i ∉ hookUses Demo.cfg (Demo.at_ (dueTogether 6)) .rent by decide) _)
  (l := [.auction, .rent, .transmission]) (l' := [.transmission, .rent, .auction]) (by decide) (by decide)

/-- what a hook is about decides what it does: a signed call that is about none of the pieces a hook may change has the
same outcome before and after the hook -/
theorem C109_call {k : Hook} {a : AccountId} {x : Call} (h : ∀ i ∈ uses c w a x, i ∉ hookTouches c w k) :
    Alike (fun v1 v2 => Settings v1 v2 ∧ ∀ i ∈ uses c w a x, same v1 v2 i) (dispatch c x (.signed a) w)
      (dispatch c x (.signed a) (step c w k.op)) :=
  C102 a x (hook_keeps k).set fun i hi => (hook_keeps k).on i (h i hi)

/-- All four hooks have something to do, and the subscriber has no part in the auction. -/
example : Reach Demo.cfg (Demo.at_ (dueTogether 6)) ∧
    (∀ i ∈ hookUses Demo.cfg (Demo.at_ (dueTogether 6)) .auction,
      i ∉ hookUses Demo.cfg (Demo.at_ (dueTogether 6)) .rent) ∧
    ((Demo.at_ (dueTogether 6)).nfts.get 1).map (·.owner) = some 2 ∧
    ((step Demo.cfg (Demo.at_ (dueTogether 6)) .hookAuc).nfts.get 1).map (·.owner) = some 4 ∧
    ((step Demo.cfg (Demo.at_ (dueTogether 6)) .hookTr).nfts.get 2).map (·.owner) = some 8 ∧
    (step Demo.cfg (Demo.at_ (dueTogether 6)) .hookRent).rent.contracts.get 0 = none :=
  ⟨Demo.reach _ (by decide), by decide, by decide, by decide, by decide, by rfl⟩

/-- A transfer between accounts that have no part in the auction. -/
example : ∀ i ∈ uses Demo.cfg (Demo.at_ (dueTogether 6)) 8 (.bal 9 100 .allowDeath),
    i ∉ hookTouches Demo.cfg (Demo.at_ (dueTogether 6)) .auction := by decide

/-- **The order of the hooks of auctions and rentals matters.**  The seller of an auctioned NFT is also a subscriber
whose rent is due in the same block: if auctions come first, the proceeds pay the rent and the rental goes on; if
rentals come first, the rent cannot be paid and the rental ends. -/
theorem C109_fails : ∃ c w n, c.Ok ∧ Reach c w ∧
    (hooks c w [.auction, .rent]).rent.contracts.get n ≠ none ∧
    (hooks c w [.rent, .auction]).rent.contracts.get n = none :=
  ⟨Demo.cfg, Demo.at_ (dueTogether 2), 0, Demo.cfg_ok, Demo.reach _ (by decide), by decide, by rfl⟩

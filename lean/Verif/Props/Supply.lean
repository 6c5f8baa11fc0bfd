import Verif.Props.Nft
import Verif.Props.LockSpec
import Verif.Props.Bridge
import Verif.Props.Rewards
import Verif.Props.Rent
import Verif.Proofs.Kept
import Verif.Proofs.Panic
/-
Properties C61 to C63: the token supply, whose tokens an operation may take, and panics.
-/
variable {c : Cfg} {w w' : World} {a : AccountId}
set_option maxRecDepth 10000

/- Specification -/
namespace Spec

/-- `d` tokens vanish as the remainder, below the existential deposit, of an account that is emptied -/
def Dust (c : Cfg) (b b' : Bal) (d : Balance) : Prop :=
  d = 0 ∨ d < c.ed ∧ ∃ y, 0 < b.freeOf y ∧ b'.freeOf y = 0

/-- What an operation may do to the total issuance. -/
def Supply (c : Cfg) (w w' : World) : Op → Prop
  -- a vote mints at most the amount of the transfer, and only if it is the approving one
  | .call (.signed _) (.br (.vote k t)) =>
    w'.bal.issuance = w.bal.issuance ∨
    (.approved k t ∉ w.evs ∧ .approved k t ∈ w'.evs ∧ w.bal.issuance ≤ w'.bal.issuance ∧
      w'.bal.issuance ≤ w.bal.issuance + t.amount)
  -- a deposit burns its amount
  | .call (.signed _) (.br (.deposit v _ _)) =>
    w'.bal.issuance = w.bal.issuance ∨
    ∃ d, Dust c w.bal w'.bal d ∧ w'.bal.issuance + v + d = w.bal.issuance
  -- a transaction's fee is burned, its tip at most
  | .txFee _ f t _ => w'.bal.issuance = w.bal.issuance ∨
    (w'.bal.issuance + f ≤ w.bal.issuance ∧ w.bal.issuance ≤ w'.bal.issuance + f + t)
  -- an era payout burns what it takes from the reward pot
  | .eraPayout => ∃ d, Dust c w.bal w'.bal d ∧
    w'.bal.issuance + min (w.bal.freeOf c.rewPot) w.rew.extra + d = w.bal.issuance
  -- mints of pallets outside
  | .mint _ v => w.bal.issuance ≤ w'.bal.issuance ∧ w'.bal.issuance ≤ w.bal.issuance + v
  -- nothing else mints or burns, except for dust
  | _ => ∃ d, Dust c w.bal w'.bal d ∧ w'.bal.issuance + d = w.bal.issuance

/-- The contract of `n` is a subscription of `y` whose next period is due, not ended, and its terms are accepted. -/
def RenewalDue (w : World) (n : NFTId) (y : AccountId) : Prop :=
  ∃ k u fee s b, w.rent.contracts.get n = some k ∧ k.rentee = some y ∧ k.duration = .sub u ∧
    k.rentFee = .tokens fee ∧ k.start = some s ∧ u.newTerms = false ∧ w.now < s + u.maxDur ∧
    (n, b) ∈ w.rent.subQ ∧ b ≤ w.now

/-- Whose free balance an operation may lower. -/
def MayPay (c : Cfg) (w : World) (y : AccountId) : Op → Prop
  | .call (.signed a) x =>
    (y = a ∧ ∀ t, x ≠ .tee t) ∨ (y = c.aucPot ∧ ∃ z, x = .auc z) ∨ (y = c.rentPot ∧ ∃ z, x = .rent z) ∨
    (y = c.teePot ∧ ∃ z, x = .tee z) ∨
    (∃ n l, x = .rent (.acceptOffer n y) ∧ w.rent.offers.get n = some l ∧ y ∈ l)
  | .hookAuc => y = c.aucPot
  | .hookRent => y = c.rentPot ∨ ∃ n, RenewalDue w n y
  | .txFee p _ _ _ => y = p
  | .eraPayout => y = c.rewPot
  | _ => False

/-- The call creates something although the ids for it, of 32 bits, are used up. -/
def OutOfIds (w : World) : Call → Prop
  | .nft (.createNft ..) | .nft (.createSecret ..) | .nft (.createCapsule ..) => U32MAX ≤ w.nft.nextNft
  | .nft (.createColl ..) => U32MAX ≤ w.nft.nextColl
  | .mkt (.create ..) => U32MAX ≤ w.mkt.next
  | .root (.tee (.createCluster ..)) => U32MAX ≤ w.tee.nextCluster
  | .mandate x => OutOfIds w x
  | _ => False

end Spec

/-- C61: the total issuance is what all accounts hold, plus what the fee collector received. -/
theorem C61_sum (hr : Reach c w) :
    w.bal.issuance = w.bal.free.sumBy (fun _ v => v) + w.bal.collected ∧ w.bal.issuance ≤ U128MAX :=
  ⟨hr.micro.balInv.wf.sum, hr.micro.balInv.wf.max⟩

/-- C61: only approved proposals (and pallets outside) mint; only deposits, transaction fees and era payouts burn,
apart from the dust of emptied accounts. -/
theorem C61_change (hc : c.Ok) (hr : Reach c w) (o : Op) (ho : o.Ok c) : Spec.Supply c w (step c w o) o := by
  have gen : (∃ p, Loses c.ed p w.bal (step c w o).bal) →
      ∃ d, Spec.Dust c w.bal (step c w o).bal d ∧ (step c w o).bal.issuance + d = w.bal.issuance := by
    rintro ⟨p, h | ⟨h1, h2, h3, h4⟩⟩
    · exact ⟨0, .inl rfl, h⟩
    · exact ⟨w.bal.issuance - (step c w o).bal.issuance, .inr ⟨by omega, p, h1, h2⟩, by omega⟩
  have oth := fun h1 h2 h3 h4 => gen (step_loses hc hr o ho h1 h2 h3 h4)
  cases o
  case call o x =>
    cases o
    case signed a =>
      cases x
      case br x =>
        cases x with
        | vote k t =>
          rcases C51_mint (c := c) (w := w) (a := a) k t with ⟨_, h⟩ | ⟨h, _, h4, h2, _⟩
          · exact .inl (by rw [h])
          · right
            have h1 := C51_once (Reach.step _ hr ho) k t
            have h3 := emits_count h
            refine ⟨fun hm => ?_, List.count_pos_iff.1 (by omega), h4, h2⟩
            have := List.count_pos_iff.2 hm; omega
        | deposit v r d =>
          simp only [step, Spec.Supply]
          cases h : dispatch c (.br (.deposit v r d)) (.signed a) w with
          | error e => exact .inl rfl
          | ok w' =>
            obtain ⟨_, _, _, dust, h1, h2, h3⟩ := C55 hr h
            refine .inr ⟨dust, ?_, by rw [orSame]; omega⟩
            rcases h1 with h1 | ⟨h1, h4⟩
            · exact .inl h1
            · by_cases h0 : dust = 0
              · exact .inl h0
              · exact .inr ⟨h1, a, by omega, h4⟩
      all_goals exact oth (by simp) (by simp) (by simp) (by simp)
    all_goals exact oth (by simp) (by simp) (by simp) (by simp)
  case txFee p f t au =>
    simp only [step, Spec.Supply]
    cases h : RewM.txFee c w p f t au with
    | error e => exact .inl rfl
    | ok w' =>
      right
      simp only [RewM.txFee] at h; inv_ok at h
      obtain ⟨b, h1, rfl⟩ := h
      have hle := Bal.withdraw_le h1
      have hi : b.issuance = w.bal.issuance := by
        rcases Bal.withdraw_ok h1 with ⟨e, rfl⟩ | ⟨h2, h3, h4, rfl⟩
        · rfl
        · have : ¬ (w.bal.freeOf p - (f + t) < c.ed) := by intro hlt; have := h4.2 hlt; simp at this
          simp [Bal.settle, this, Bal.setFree]
      have hsum := hr.micro.balInv.wf.sum
      have htot := Bal.freeOf_le_total w.bal p
      have ht : (b.burn (f + t)).issuance ≤ (RewM.tipTo c (b.burn (f + t)) t au).issuance ∧
          (RewM.tipTo c (b.burn (f + t)) t au).issuance ≤ (b.burn (f + t)).issuance + t := by
        cases au with
        | none => exact ⟨Nat.le_refl _, Nat.le_add_right _ _⟩
        | some y =>
          obtain ⟨h1, h2, _⟩ := Bal.mint_issuance (ed := c.ed) (b.burn (f + t)) y t
          exact ⟨h1, h2⟩
      have hb : (b.burn (f + t)).issuance = b.issuance - (f + t) := rfl
      simp only [orSame, World.putBal, World.ev]
      omega
  case eraPayout =>
    obtain ⟨_, _, _, _, _, dust, h1, h2, h3⟩ := C58 hr
    refine ⟨dust, ?_, by omega⟩
    rcases h1 with h1 | ⟨h1, h4⟩
    · exact .inl h1
    · by_cases h0 : dust = 0
      · exact .inl h0
      · exact .inr ⟨h1, c.rewPot, by omega, h4⟩
  case mint a v =>
    obtain ⟨h1, h2, _⟩ := Bal.mint_issuance (ed := c.ed) w.bal a v
    exact ⟨h1, h2⟩
  all_goals exact oth (by simp) (by simp) (by simp) (by simp)

-- an approved proposal mints 700; a deposit burns 9990 and 7 of dust; a fee of 20 is burned, a tip moves;
-- an era payout burns 100; nothing else changes the issuance
example : (Demo.at_ (Demo.bridge ++ [Demo.vote7 1, Demo.vote7 2])).bal.issuance = 92700 ∧
    (Demo.at_ (Demo.bridge ++ [Demo.by_ 1 (.br (.deposit 9990 [7] 1))])).bal.issuance = 92000 - 9997 ∧
    (Demo.at_ [.txFee 1 20 4 (some 2)]).bal.issuance = 91980 ∧ (Demo.at_ [.eraPayout]).bal.issuance = 91900 ∧
    (Demo.at_ (Demo.mint1 :: rented)).bal.issuance = 92000 ∧ (Demo.at_ (Demo.mint1 :: rented)).bal.collected = 10 :=
  by decide

/-- C62: nobody's free balance goes down except as specified. -/
theorem C62_who (hc : c.Ok) (hr : Reach c w) (o : Op) {y : AccountId}
    (h : (step c w o).bal.freeOf y < w.bal.freeOf y) : Spec.MayPay c w y o := by
  have hl := (step_kept hc hr o y h).1
  cases o
  case call o x =>
    cases o
    case signed a =>
      cases x <;> simp only [loser, payer] at hl
      case auc x =>
        rcases hl with hl | hl
        · exact .inl ⟨hl, by simp⟩
        · exact .inr (.inl ⟨hl, x, rfl⟩)
      case rent x =>
        cases x <;> simp only [RentM.payer] at hl
        case acceptOffer n r =>
          rcases hl with hl | ⟨rfl, l, h1, h2⟩
          · exact .inr (.inr (.inl ⟨hl, _, rfl⟩))
          · exact .inr (.inr (.inr (.inr ⟨n, l, rfl, h1, h2⟩)))
        all_goals
          rcases hl with hl | hl
          · exact .inl ⟨hl, by simp⟩
          · exact .inr (.inr (.inl ⟨hl, _, rfl⟩))
      case tee x => exact .inr (.inr (.inr (.inl ⟨hl, x, rfl⟩)))
      all_goals exact .inl ⟨hl, by simp⟩
    all_goals exact hl
  case hookRent =>
    rcases hl with hl | ⟨n, k, u, fee, s, h1, h2, h3, h4, h5, h6, h7, b, h8, h9⟩
    · exact .inl hl
    · exact .inr ⟨n, k, u, fee, s, b, h1, h2, h3, h4, h5, h6, h7, h8, h9⟩
  all_goals exact hl

/-- C62: an account that pays keeps all that is locked, be it by the TEE pallet or by others. -/
theorem C62_locked (hc : c.Ok) (hr : Reach c w) (o : Op) {y : AccountId}
    (h : (step c w o).bal.freeOf y < w.bal.freeOf y) : Spec.locked w.bal y ≤ (step c w o).bal.freeOf y :=
  (step_kept hc hr o y h).2

/-- C62: locked stake is always there. -/
theorem C62_stake (hr : Reach c w) (y : AccountId) {v : Balance} (h : w.bal.tee.get y = some v) :
    v ≤ w.bal.freeOf y := by
  have := hr.covered y
  rw [h] at this
  exact this

-- accepting an offer takes the fee from the offering account 2, a renewal from the rentee 2
example : let w := Demo.at_ offered2
    Reach Demo.cfg w ∧ w.bal.freeOf 2 = 10000 ∧
    (step Demo.cfg w (Demo.by_ 1 (.rent (.acceptOffer 0 2)))).bal.freeOf 2 = 9900 :=
  ⟨Demo.reach _ (by decide), by decide, by decide⟩
example : let w := Demo.at_ (subscribed ++ rentBlocks 4 ++ [.tick])
    Reach Demo.cfg w ∧ w.bal.freeOf 2 = 9600 ∧ (step Demo.cfg w .hookRent).bal.freeOf 2 = 9500 :=
  ⟨Demo.reach _ (by decide), by decide, by decide⟩
-- a staked operator can spend all but the stake
example : let w := Demo.at_ Demo.enclaves
    Reach Demo.cfg w ∧ w.bal.tee.get 8 = some 50 ∧
    (step Demo.cfg w (Demo.by_ 8 (.bal 1 9950 .allowDeath))).bal.freeOf 8 = 50 ∧
    (step Demo.cfg w (Demo.by_ 8 (.bal 1 9951 .allowDeath))).bal.freeOf 8 = 10000 :=
  ⟨Demo.reach _ (by decide), by decide, by decide, by decide⟩

theorem someShards (hc : c.Ok) (hr : Reach c w) : SomeShards w := by
  intro n
  constructor
  · intro h
    have := ((C11_shards hc hr (n := n)).1 h).1.1
    simp at this
  · intro h
    have := ((C11_shards hc hr (n := n)).2 h).1.1
    simp at this

/-- C63: no extrinsic panics, unless it needs a new id and 2^32 - 1 of its kind were given out. -/
theorem C63_calls (hc : c.Ok) (hr : Reach c w) {x : Call} {o : Origin} {s : String}
    (h : dispatch c x o w = .error (.panic s)) : Spec.OutOfIds w x := by
  have hf := dispatch_panic hc hr (someShards hc hr) h
  clear h
  induction x with
  | mandate x ih => exact ih hf
  | nft x => cases x <;> exact hf
  | mkt x => cases x <;> exact hf
  | root x =>
    cases x with
    | tee x => cases x <;> exact hf
    | _ => exact hf
  | _ => exact hf

/-- C63: moving a deadline or a timer never fails, and neither does putting back into a schedule of the rent pallet
what was taken out of it. -/
theorem C63_queues (hc : c.Ok) (hr : Reach c w) (n : NFTId) (b : Block) :
    (∃ q, w.auc.deadlines.update c.aucLimit n b = .ok q) ∧ (∃ q, w.tr.queue.update c.trLimit n b = .ok q) ∧
    ∀ q ∈ [w.rent.fixedQ, w.rent.subQ, w.rent.availQ], n ∈ q.map (·.1) →
      ∃ q', Queue.insert c.rentLimit (q.remove n) n b = some q' := by
  refine ⟨Queue.update_no_panic (hr.auc hc).len, Queue.update_no_panic (hr.inv hc).tr.len, fun q hq hn => ?_⟩
  have hl := (hr.inv hc).rent.q.len
  have hq : q.length ≤ c.rentLimit := by
    simp only [List.mem_cons, List.not_mem_nil, or_false] at hq
    rcases hq with rfl | rfl | rfl <;> omega
  have := Queue.length_remove hn
  exact ⟨_, Queue.insert_of_lt (by omega)⟩

/-- C63: what the block hooks do for one auction, contract or transmission never panics, in any world. -/
theorem C63_hooks (w : World) (n : NFTId) (s : String) :
    (∀ src v d x, (AucM.payForNft c w n src v d x).2 ≠ .error (.panic s)) ∧
    (RentM.handleFinished c n w).2 ≠ .error (.panic s) ∧ TrM.transmit w n ≠ .error (.panic s) := by
  refine ⟨fun _ _ _ _ => AucM.payForNft_panic, RentM.Calm.finished w s, fun h => ?_⟩
  simp only [TrM.transmit] at h; inv_panic' at h

/-- the call that creates NFTs below -/
private def mk : Call := .nft (.createNft [] ⟨0, by decide⟩ none false)

private theorem mk_eq {w : World} (hf : w.nft.fee = 0) :
    dispatch Demo.cfg mk (.signed 1) w = (do
      let x ← NftM.nextNftId w
      pure (x.2.putNft x.1 ⟨1, 1, [], none, ⟨0, by decide⟩, { soulbound := false }⟩)) := by
  simp only [mk, dispatch, signedCall, NftM.call, NftM.createNft, NftM.createHelper, hf, Bal.payFee, Bal.withdraw,
    NftM.pushToColl]
  rfl

-- the ids can be used up: with a mint fee of 0, any number below 2^32 of NFTs can be created
private theorem many (k : Nat) (h : k ≤ U32MAX) :
    ∃ w, Reach Demo.cfg w ∧ w.nft.fee = 0 ∧ w.nft.nextNft = k := by
  induction k with
  | zero => exact ⟨_, Demo.reach [.call .root (.root (.nftFee 0))] (by decide), by decide, by decide⟩
  | succ k ih =>
    obtain ⟨w, hr, hf, hn⟩ := ih (by omega)
    have ho : (Op.call (.signed 1) mk).Ok Demo.cfg := by unfold Op.Ok; decide
    refine ⟨_, hr.step (.call (.signed 1) mk) ho, ?_⟩
    rw [step, mk_eq hf]
    simp only [NftM.nextNftId, hn, if_pos h]
    exact ⟨hf, rfl⟩

-- then the next creation panics
example : ∃ w, Reach Demo.cfg w ∧ ∃ s, dispatch Demo.cfg mk (.signed 1) w = .error (.panic s) := by
  obtain ⟨w, hr, hf, hn⟩ := many U32MAX (Nat.le_refl _)
  refine ⟨w, hr, "If u32 is not enough we should crash for safety; qed.", ?_⟩
  rw [mk_eq hf]
  simp only [NftM.nextNftId, hn, if_neg (show ¬ U32MAX + 1 ≤ U32MAX by omega)]
  rfl

example := C61_sum (Demo.reach (Demo.bridge ++ [Demo.vote7 1, Demo.vote7 2]) (by decide))

example := C62_who Demo.cfg_ok (Demo.reach offered2 (by decide)) (Demo.by_ 1 (.rent (.acceptOffer 0 2)))
  (y := 2) (by decide)

example := C62_locked Demo.cfg_ok (Demo.reach Demo.enclaves (by decide)) (Demo.by_ 8 (.bal 1 9950 .allowDeath))
  (y := 8) (by decide)

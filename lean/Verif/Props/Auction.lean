import Verif.Proofs.AucTurn
import Verif.Props.Market
/-
Properties C18 (auctions) and C19–C27.
-/
variable {c : Cfg} {w w' : World} {a : AccountId}
set_option maxRecDepth 10000

/- Specification -/
namespace Spec

/-- is there an entry for `n` in the schedule of auction ends? -/
def Scheduled (w : World) (n : NFTId) : Prop := ∃ e, (n, e) ∈ w.auc.deadlines

/-- the sum of all standing bids and unclaimed refunds -/
def owed (w : World) : Balance :=
  (w.auc.claims.sumBy fun _ v => v) + w.auc.auctions.sumBy fun _ x => (x.bids.map Prod.snd).sum

/-- the auction pallet's account covers everything it owes, and `s` on top -/
def Covered (c : Cfg) (s : Balance) (w : World) : Prop := owed w + s ≤ w.bal.freeOf c.aucPot

/-- a run of the auction hook settles every auction it takes off the schedule -/
def Clean (c : Cfg) (w : World) (o : Op) : Prop :=
  o = .hookAuc → ∀ n, Scheduled w n → ¬ Scheduled (step c w o) n →
    (step c w o).auc.auctions.get n = none

/-- every hook run in a history is clean -/
def AllClean (c : Cfg) (w : World) (l : List Op) : Prop :=
  ∀ l1 o l2, l = l1 ++ o :: l2 → Clean c (run c w l1) o

/-- the standing bids and the refund of one account -/
def stakeOf (w : World) (y : AccountId) : Balance :=
  (w.auc.claims.get y).getD 0 +
    w.auc.auctions.sumBy fun _ x => ((x.bids.filter fun b => decide (b.1 = y)).map Prod.snd).sum

/-- the winning bids of `y` in the auctions of `w` that are gone in `w'` -/
def wins (w w' : World) (y : AccountId) : Balance :=
  w.auc.auctions.sumBy fun n x =>
    if w'.auc.auctions.get n = none then
      match x.bids.getLast? with
      | some top => if top.1 = y then top.2 else 0
      | none => 0
    else 0

/-- all winning bids in the auctions of `w` that are gone in `w'` -/
def allWins (w w' : World) : Balance :=
  w.auc.auctions.sumBy fun n x =>
    if w'.auc.auctions.get n = none then
      match x.bids.getLast? with
      | some top => top.2
      | none => 0
    else 0

/-- the commission, royalty and remainder of a sale for `v` -/
structure Shares (v : Balance) (f : Option CompoundFee) (d : NFTData) (m r rest : Balance) : Prop where
  commission : m = Spec.commission v f
  royalty : r = d.royalty.mul (v - m)
  total : m + r + rest = v

/-- what `y` is to receive when the auction `x` of `n` is settled to its highest bid -/
def proceeds (w : World) (n : NFTId) (x : Auction) (y : AccountId) : Balance :=
  match x.bids.getLast?, w.nfts.get n, w.mkt.mkts.get x.mkt, w.auc.comm.get n with
  | some top, some d, some k, some f =>
    let m := Spec.commission top.2 f
    let r := d.royalty.mul (top.2 - m)
    Spec.gets y k.owner m + Spec.gets y d.creator r + Spec.gets y x.creator (top.2 - m - r)
  | _, _, _, _ => 0

/-- what `y` is to receive from the auctions of `w` that are gone in `w'` -/
def paidOut (w w' : World) (y : AccountId) : Balance :=
  w.auc.auctions.sumBy fun n x => if w'.auc.auctions.get n = none then proceeds w n x y else 0

/-- runs of the auction hook -/
def aucRuns (l : List Op) : Nat := l.countP fun o => match o with
  | .hookAuc => true
  | _ => false

/-- everybody an auction pays has an account -/
def PayeesExist (c : Cfg) (w : World) : Prop :=
  ∀ n x d k, w.auc.auctions.get n = some x → w.nfts.get n = some d →
    w.mkt.mkts.get x.mkt = some k →
    (k.owner = c.aucPot ∨ c.ed ≤ w.bal.freeOf k.owner) ∧
    (d.creator = c.aucPot ∨ c.ed ≤ w.bal.freeOf d.creator) ∧
    (x.creator = c.aucPot ∨ c.ed ≤ w.bal.freeOf x.creator)

end Spec

/- demo chains -/

/-- `k` blocks, each beginning with the auction hook -/
abbrev blocks (k : Nat) : List Op := (List.replicate k [Op.tick, .hookAuc]).flatten

/-- NFT 0 of account 1 is auctioned on marketplace 0 of account 3, which takes 10 %; bids of 2, 4 and 2 -/
abbrev auctioned : List Op :=
  [Demo.mint1, Demo.by_ 3 (.mkt (.create .pub)),
   Demo.by_ 3 (.mkt (.setConfig 0 (.set (.percentage ⟨100000, by omega⟩)) .noop .noop .noop .noop)),
   Demo.by_ 1 (.auc (.create 0 0 0 10 100 (some 5000))),
   Demo.by_ 2 (.auc (.addBid 0 200)), Demo.by_ 4 (.auc (.addBid 0 300)),
   Demo.by_ 2 (.auc (.addBid 0 400))]

/-- a marketplace with a flat commission of 95, and an auction with one bid of 100 -/
abbrev doomed : List Op :=
  [Demo.mint1, Demo.by_ 3 (.mkt (.create .pub)),
   Demo.by_ 3 (.mkt (.setConfig 0 (.set (.flat 95)) .noop .noop .noop .noop)),
   Demo.by_ 1 (.auc (.create 0 0 0 10 95 none)),
   Demo.by_ 2 (.auc (.addBid 0 100))]

/-- `AllClean`, in a form that can be computed -/
theorem Demo.clean {l : List Op} (h : ∀ i, i < l.length → ∀ y ∈ (Demo.at_ (l.take i)).auc.deadlines,
    y.1 ∉ (step Demo.cfg (Demo.at_ (l.take i)) .hookAuc).auc.deadlines.map Prod.fst →
    (step Demo.cfg (Demo.at_ (l.take i)) .hookAuc).auc.auctions.get y.1 = none) :
    Spec.AllClean Demo.cfg Demo.w0 l := by
  intro l1 o l2 e ho n ⟨b, hb⟩ hn
  subst ho
  have h' := h l1.length (by rw [e]; simp) (n, b)
  rw [e, List.take_left' rfl] at h'
  refine h' hb fun hm => hn ?_
  obtain ⟨⟨m, b'⟩, hy, e⟩ := List.mem_map.1 hm
  cases e
  exact ⟨b', hy⟩

/-- `PayeesExist`, in a form that can be computed -/
theorem Demo.payees {w : World} (h : ∀ p ∈ w.auc.auctions.l, ∀ d ∈ w.nfts.get p.1,
    ∀ k ∈ w.mkt.mkts.get p.2.mkt,
    10 ≤ w.bal.freeOf k.owner ∧ 10 ≤ w.bal.freeOf d.creator ∧ 10 ≤ w.bal.freeOf p.2.creator) :
    Spec.PayeesExist Demo.cfg w := fun n x d k hx hd hk =>
  have h' := h (n, x) (FMap.get_some_iff_mem.1 hx) d hd k hk
  ⟨.inr h'.1, .inr h'.2.1, .inr h'.2.2⟩

/- links between the specification and the lemmas -/

theorem Spec.scheduled_iff {n : NFTId} : Spec.Scheduled w n ↔ n ∈ Queue.ids w.auc.deadlines :=
  Queue.mem_ids.symm

theorem Spec.owed_eq : Spec.owed w = AucM.owed w := (AucM.owed_eq w).symm

theorem Spec.covered_iff {s : Balance} : Spec.Covered c s w ↔ AucM.Solvent c s w := by
  unfold Spec.Covered AucM.Solvent; rw [Spec.owed_eq]

theorem Spec.Clean.settled (h : Spec.Clean c w .hookAuc) : AucM.Settled w (step c w .hookAuc) :=
  fun n h1 h2 => h rfl n (Spec.scheduled_iff.2 h1) fun h3 => h2 (Spec.scheduled_iff.1 h3)

theorem Spec.stakeOf_eq (y : AccountId) :
    Spec.stakeOf w y = AucM.stake (fun z => decide (z = y)) w.auc := by
  unfold Spec.stakeOf AucM.stake
  congr 1
  · rw [FMap.sumBy_split _ w.auc.claims y]
    have : (w.auc.claims.erase y).sumBy (AucM.wt1 fun z => decide (z = y)) = 0 :=
      FMap.sumBy_zero fun k v hk => by
        simp only [FMap.get_erase] at hk
        split at hk
        · simp at hk
        · simp only [AucM.wt1, decide_eq_true_eq]; rw [if_neg (by assumption)]
    rw [this]
    cases w.auc.claims.get y <;> simp [AucM.wt1]
  · refine FMap.sumBy_congr fun k x _ => ?_
    unfold AucM.wt AucM.wt1
    induction x.bids with
    | nil => rfl
    | cons z t ih =>
      rw [List.filter_cons]
      split <;> simp_all

theorem Spec.wins_eq (y : AccountId) :
    Spec.wins w w' y = AucM.won (fun z => decide (z = y)) w w' := by
  unfold Spec.wins AucM.won
  refine FMap.sumBy_congr fun k x _ => ?_
  split
  · cases x.bids.getLast? <;> simp [AucM.wt1]
  · rfl

theorem Spec.allWins_eq : Spec.allWins w w' = AucM.won (fun _ => true) w w' := by
  unfold Spec.allWins AucM.won
  refine FMap.sumBy_congr fun k x _ => ?_
  split
  · cases x.bids.getLast? <;> simp [AucM.wt1]
  · rfl

theorem Spec.proceeds_eq {n : NFTId} {x : Auction} (y : AccountId) :
    Spec.proceeds w n x y = AucM.proceeds w n x y := by
  unfold Spec.proceeds AucM.proceeds
  split <;> simp_all [Spec.gets, _root_.gets, Spec.commission_eq]

theorem Spec.paidOut_eq (y : AccountId) : Spec.paidOut w w' y = AucM.paidOut w w' y := by
  unfold Spec.paidOut AucM.paidOut
  refine FMap.sumBy_congr fun k x _ => ?_
  rw [Spec.proceeds_eq]

theorem auc_act {x : AucM.Call} (h : dispatch c (.auc x) (.signed a) w = .ok w') :
    AucM.Act c w a x w' := AucM.call_act (c := c) (w := w) (a := a) (x := x) h

/- C18 -/

/-- Whoever starts an auction owns the NFT, signed the call, and was allowed on that marketplace at
that moment. -/
theorem C18_auction (hc : c.Ok) (hr : Reach c w) (o : Op) (ho : o.Ok c) {n : NFTId} {x : Auction}
    (h0 : w.auc.auctions.get n = none) (h : (step c w o).auc.auctions.get n = some x) :
    ∃ d k, w.nfts.get n = some d ∧ d.owner = x.creator ∧ d.st.listed = false ∧
      w.mkt.mkts.get x.mkt = some k ∧ Spec.Allowed k x.creator d.coll ∧
      (step c w o).auc.comm.get n = some k.commission ∧ x.bids = [] ∧ x.extended = false ∧
      o = .call (.signed x.creator)
        (.auc (.create n x.mkt x.start x.fin x.startPrice x.buyIt)) := by
  rcases step_auc_case w o ho with ⟨a, y, rfl, ha, hact⟩ | ⟨rfl, hact⟩ | e
  · generalize step c w _ = w' at hact h ⊢
    cases hact with
    | @create m k s e p bi d km q g1 g2 g3 g4 g5 g6 hd hown hl hk hal hcov hq =>
      simp only [FMap.get_insert] at h ⊢
      split at h
      · simp only [Option.some.injEq] at h
        subst h; subst_vars
        exact ⟨d, km, hd, rfl, hl, hk, (Spec.allowed_iff _ _ _).1 hal, by simp, rfl, rfl, rfl⟩
      · rw [h0] at h; simp at h
    | cancel => simp only [FMap.get_erase] at h; split at h <;> simp [h0] at h
    | end_ => simp only [FMap.get_erase] at h; split at h <;> simp [h0] at h
    | buyItNow => simp only [FMap.get_erase] at h; split at h <;> simp [h0] at h
    | addBid hx => 
      simp only [FMap.get_insert] at h
      split at h
      · subst_vars; rw [h0] at hx; simp at hx
      · rw [h0] at h; simp at h
    | removeBid hx =>
      simp only [FMap.get_insert] at h
      split at h
      · subst_vars; rw [h0] at hx; simp at hx
      · rw [h0] at h; simp at h
    | claim => rw [h0] at h; simp at h
  · rw [AucM.pops_sub hact h] at h0; simp at h0
  · rw [e, h0] at h; simp at h

example : Reach Demo.cfg (Demo.at_ (auctioned.take 3)) ∧
    (Demo.at_ (auctioned.take 3)).auc.auctions.get 0 = none ∧
    ((Demo.at_ (auctioned.take 4)).auc.auctions.get 0).map (fun x => (x.creator, x.mkt, x.fin)) =
      some (1, 0, 10) :=
  ⟨Demo.reach _ (by decide), by decide, by decide⟩

/- C19 -/

/-- In every auction the bids strictly increase, one per account, within the limit; none is by the
auction's creator, all are above start price and existential deposit. -/
theorem C19 (hc : c.Ok) (hr : Reach c w) {n : NFTId} {x : Auction}
    (hx : w.auc.auctions.get n = some x) :
    x.bids.Pairwise (fun y z => y.2 < z.2) ∧ (x.bids.map Prod.fst).Nodup ∧
    x.bids.length ≤ c.bidLimit ∧
    ∀ y ∈ x.bids, y.1 ≠ x.creator ∧ x.startPrice < y.2 ∧ c.ed < y.2 :=
  let h := (hr.auc hc).ok n x hx
  ⟨h.ladder, h.one, h.len, fun y hy => ⟨(h.bid y hy).1, (h.bid y hy).2.1, (h.bid y hy).2.2.1⟩⟩

-- two standing bids of an auction
example := C19 Demo.cfg_ok (Demo.reach auctioned (by decide)) (n := 0)
  (x := ⟨1, 0, 10, 100, some 5000, [(4, 300), (2, 400)], 0, false⟩) rfl

/-- An accepted bid is by somebody else than the creator and above start price and existential deposit;
it becomes the last and only highest one, replaces the bidder's previous one, and every other bid stays
except the lowest when the list is full. -/
theorem C19_highest (hc : c.Ok) (hr : Reach c w) {n : NFTId} {v : Balance}
    (h : dispatch c (.auc (.addBid n v)) (.signed a) w = .ok w') :
    ∃ x x', w.auc.auctions.get n = some x ∧ w'.auc.auctions.get n = some x' ∧
      a ≠ x.creator ∧ x.startPrice < v ∧ c.ed < v ∧ (∀ y ∈ x.bids, y.2 < v) ∧
      x'.bids.getLast? = some (a, v) ∧
      x'.bids = (if (x.bids.filter fun y => decide (y.1 ≠ a)).length < c.bidLimit
          then x.bids.filter fun y => decide (y.1 ≠ a)
          else (x.bids.filter fun y => decide (y.1 ≠ a)).tail) ++ [(a, v)] := by
  cases auc_act h with
  | @addBid _ _ x b dr l q hx h1 h2 h3 h4 h5 h6 h7 =>
    have hok := (hr.auc hc).ok n x hx
    obtain ⟨g1, g2⟩ := AucM.beats_max h4 hok.ladder fun y hy => (hok.bid y hy).2.1
    have hl := AucM.insertBid_tail h6
    rw [AucM.removeBid_filter hok.one] at hl
    have hb : (AucM.extend c { x with bids := l } w.now).1.bids = l := AucM.extend_bids _ _
    refine ⟨x, _, hx, FMap.get_insert_self _ _ _, fun e => h1 e.symm, g1, h3, g2, ?_, ?_⟩
    · rw [hb, hl]; simp
    · rw [hb, hl]

example : Reach Demo.cfg (Demo.at_ auctioned) ∧
    ((Demo.at_ auctioned).auc.auctions.get 0).map (·.bids) = some [(4, 300), (2, 400)] ∧
    ((Demo.at_ (auctioned ++ [Demo.by_ 5 (.auc (.addBid 0 450))])).auc.auctions.get 0).map (·.bids) =
      some [(2, 400), (5, 450)] ∧
    (Demo.at_ (auctioned ++ [Demo.by_ 5 (.auc (.addBid 0 450))])).auc.claims.get 4 = some 300 :=
  ⟨Demo.reach _ (by decide), by decide, by decide, by decide⟩

/- C20 -/

/-- One step with a clean hook run keeps obligations covered; `s` is a reserve of nothing or at least
the existential deposit. -/
theorem step_covered (hc : c.Ok) (hr : Reach c w) {s : Balance} (h0 : s = 0 ∨ c.ed ≤ s)
    (hs : Spec.Covered c s w) (o : Op) (ho : o.Ok c) (hcl : Spec.Clean c w o) :
    Spec.Covered c s (step c w o) := by
  rw [Spec.covered_iff] at hs ⊢
  have hi := hr.auc hc
  have hg := (hr.inv hc).good
  by_cases ha : ∃ a x, o = .call (.signed a) (.auc x)
  · obtain ⟨a, x, rfl⟩ := ha
    simp only [step]
    cases hd : dispatch c (.auc x) (.signed a) w with
    | error e => exact hs
    | ok w' => exact AucM.Solvent.call h0 hs hi hg ho (auc_act hd)
  · by_cases hk : o = .hookAuc
    · subst hk
      exact AucM.Solvent.pops h0 (AucM.hook_pops w) hs hi (AucM.HasNft.of_good hg) hcl.settled
    · have hauc : (step c w o).auc = w.auc := by
        rcases step_auc_case w o ho with ⟨a, x, rfl, _⟩ | ⟨rfl, _⟩ | e
        · exact absurd ⟨a, x, rfl⟩ ha
        · exact absurd rfl hk
        · exact e
      have hf : w.bal.freeOf c.aucPot ≤ (step c w o).bal.freeOf c.aucPot := by
        rcases step_pot_free hc hr o ho Cfg.pot_auc with h | ⟨_, h | h⟩ | ⟨h, _⟩ | ⟨h, _⟩ | ⟨h, _⟩
        · exact h
        · exact absurd h ha
        · exact absurd h hk
        · exact absurd h hc.ar
        · exact absurd h hc.at_
        · exact absurd h hc.aw
      unfold AucM.Solvent AucM.owed at hs ⊢
      rw [hauc]; omega

/-- The claim of C20 is false of the code: a payout that aborts in the hook (here: the pot falls below
the existential deposit after the commission was paid, is reaped, and cannot pay the seller) leaves the
auction with its bid on record and the pot empty. -/
theorem C20_fails : ∃ w, Reach Demo.cfg w ∧ ¬ Spec.Covered Demo.cfg 0 w :=
  ⟨Demo.at_ (doomed ++ blocks 10), Demo.reach _ (by decide), by unfold Spec.Covered; decide⟩

/-- What holds of C20.  Nothing is owed at genesis, and along every history whose hook runs settle all
auctions they take off the schedule, the pot covers all bids and refunds.  Missing: hook runs in which
a payout aborts. -/
theorem C20_partial (hc : c.Ok) (hg : Genesis c w) (l : List Op) (hl : ∀ o ∈ l, o.Ok c)
    (hcl : Spec.AllClean c w l) : Spec.Covered c 0 (run c w l) := by
  have h0 : Spec.Covered c 0 w := by
    obtain ⟨e1, _, e3, _⟩ := hg.auc
    unfold Spec.Covered Spec.owed
    rw [e1, e3]
    exact Nat.zero_le _
  have hr := Reach.init hg
  clear hg
  induction l generalizing w with
  | nil => exact h0
  | cons o t ih =>
    have ho := hl o (by simp)
    refine ih (fun y hy => hl y (by simp [hy])) ?_
      (step_covered hc hr (Or.inl rfl) h0 o ho (hcl [] o t rfl)) (hr.step o ho)
    intro l1 o' l2 e
    exact hcl (o :: l1) o' l2 (by rw [e]; rfl)

-- a history in which an auction is settled
example := C20_partial Demo.cfg_ok Demo.genesis (auctioned ++ blocks 10) (by decide) (Demo.clean (by decide))

/-- Every operation other than the hook keeps obligations covered, without any condition. -/
theorem C20_calls (hc : c.Ok) (hr : Reach c w) (hs : Spec.Covered c 0 w) (o : Op) (ho : o.Ok c)
    (hne : o ≠ .hookAuc) : Spec.Covered c 0 (step c w o) :=
  step_covered hc hr (Or.inl rfl) hs o ho fun h => absurd h hne

-- a further bid
example := C20_calls Demo.cfg_ok (Demo.reach auctioned (by decide)) (by unfold Spec.Covered; decide)
  (Demo.by_ 5 (.auc (.addBid 0 450))) (by decide) (by simp)

/-- A sufficient condition: if the pot holds the existential deposit on top of its obligations and
everybody to be paid has an account, the hook settles every auction it takes off the schedule. -/
theorem C20_clean (hc : c.Ok) (hr : Reach c w) (hs : Spec.Covered c c.ed w)
    (hp : Spec.PayeesExist c w) : Spec.Clean c w .hookAuc := by
  have hg := (hr.inv hc).good
  have hh : AucM.Healthy c w := ⟨by
    have := Spec.covered_iff.1 hs; exact this, hp⟩
  have := (AucM.Healthy.pops (AucM.hook_pops (c := c) w) hh (hr.auc hc) (AucM.HasNft.of_good hg)
    hr.micro.balInv).2
  intro _ n h1 h2
  exact this n (Spec.scheduled_iff.1 h1) fun h3 => h2 (Spec.scheduled_iff.2 h3)

-- an auction with two bids is due, and somebody has given the pot an existential deposit
example := C20_clean Demo.cfg_ok
  (Demo.reach (Demo.by_ 5 (.bal 101 10 .keepAlive) :: auctioned ++ Demo.ticks 10) (by decide))
  (by unfold Spec.Covered; decide) (Demo.payees (by decide))

/-- With such a reserve in the pot once, obligations and reserve stay covered along every history in
which the payees exist whenever the hook runs. -/
theorem C20_funded (hc : c.Ok) (hr : Reach c w) (hs : Spec.Covered c c.ed w) (l : List Op)
    (hl : ∀ o ∈ l, o.Ok c)
    (hp : ∀ l1 l2, l = l1 ++ .hookAuc :: l2 → Spec.PayeesExist c (run c w l1)) :
    Spec.Covered c c.ed (run c w l) := by
  induction l generalizing w with
  | nil => exact hs
  | cons o t ih =>
    have ho := hl o (by simp)
    have hcl : Spec.Clean c w o := by
      by_cases e : o = .hookAuc
      · subst e; exact C20_clean hc hr hs (hp [] t rfl)
      · exact fun h => absurd h e
    refine ih (hr.step o ho) (step_covered hc hr (Or.inr (Nat.le_refl _)) hs o ho hcl)
      (fun y hy => hl y (by simp [hy])) ?_
    intro l1 l2 e
    exact hp (o :: l1) l2 (by rw [e]; rfl)

example : Reach Demo.cfg (Demo.at_ auctioned) ∧ Spec.owed (Demo.at_ auctioned) = 700 ∧
    (Demo.at_ auctioned).bal.freeOf 101 = 700 ∧
    Spec.owed (Demo.at_ (auctioned ++ blocks 10)) = 300 ∧
    (Demo.at_ (auctioned ++ blocks 10)).bal.freeOf 101 = 300 ∧
    Spec.Covered Demo.cfg Demo.cfg.ed (Demo.at_ (Demo.by_ 5 (.bal 101 10 .keepAlive) :: auctioned)) :=
  ⟨Demo.reach _ (by decide), by decide, by decide, by decide, by decide, by
    unfold Spec.Covered; decide⟩

/-- While obligations are covered, every bid and refund, and their sum, fits the `u128` of the code, so that its
saturating additions do not saturate. -/
theorem C20_fits (hr : Reach c w) (hs : Spec.Covered c 0 w) :
    Spec.owed w ≤ U128MAX ∧ (∀ a v, w.auc.claims.get a = some v → v ≤ U128MAX) ∧
    ∀ n x, w.auc.auctions.get n = some x → ∀ y ∈ x.bids, y.2 ≤ U128MAX := by
  have h1 : w.bal.freeOf c.aucPot ≤ w.bal.issuance := by
    rw [hr.micro.balInv.wf.sum]
    unfold Bal.freeOf
    cases h : w.bal.free.get c.aucPot with
    | none => exact Nat.zero_le _
    | some v => exact Nat.le_trans (FMap.sumBy_le_of_get (f := fun _ v => v) h) (Nat.le_add_right _ _)
  have h2 : Spec.owed w ≤ U128MAX :=
    Nat.le_trans (Nat.le_trans (by unfold Spec.Covered at hs; omega) h1) hr.micro.balInv.wf.max
  refine ⟨h2, fun a v h => ?_, fun n x h y hy => ?_⟩ <;> refine Nat.le_trans ?_ h2 <;> unfold Spec.owed
  · exact Nat.le_trans (FMap.sumBy_le_of_get (f := fun _ v => v) h) (Nat.le_add_right _ _)
  · refine Nat.le_trans ?_ (Nat.le_add_left _ _)
    refine Nat.le_trans ?_ (FMap.sumBy_le_of_get (f := fun _ x => (x.bids.map Prod.snd).sum) h)
    exact AucM.mem_le_sum (List.mem_map_of_mem hy)

example : Reach Demo.cfg (Demo.at_ auctioned) ∧ Spec.Covered Demo.cfg 0 (Demo.at_ auctioned) ∧
    ((Demo.at_ auctioned).auc.auctions.get 0).map (·.bids) = some [(4, 300), (2, 400)] :=
  ⟨Demo.reach _ (by decide), by unfold Spec.Covered; decide, by decide⟩

/- C21 -/

/-- what a settlement for `v` paid from `src` does to the balances -/
structure Spec.Sold (c : Cfg) (w w' : World) (n : NFTId) (x : Auction) (d : NFTData)
    (src : AccountId) (v : Balance) : Prop where
  paid : ∃ k f m r rest δ, w.mkt.mkts.get x.mkt = some k ∧ w.auc.comm.get n = some f ∧
    Spec.Shares v f d m r rest ∧
    (∀ y, y ≠ src → w'.bal.freeOf y = w.bal.freeOf y +
      (Spec.gets y k.owner m + Spec.gets y d.creator r + Spec.gets y x.creator rest)) ∧
    w'.bal.freeOf src + v + δ = w.bal.freeOf src +
      (Spec.gets src k.owner m + Spec.gets src d.creator r + Spec.gets src x.creator rest) ∧
    (δ = 0 ∨ src = c.aucPot ∧ w'.bal.freeOf src = 0 ∧ δ < c.ed)

theorem Spec.Sold.of_paid {n x d src v} (hok : AucM.AucOk c w n x) (hv : x.startPrice ≤ v)
    (h : AucM.payForNft c w n src v d x = (w'.bal, .ok ())) : Spec.Sold c w w' n x d src v := by
  obtain ⟨k, f, m, r, rest, δ, hk, hf, e1, e2, e3, p1, p2, p3, _⟩ := AucM.payForNft_paid h
  have hle : m ≤ v := by rw [e1]; exact hok.cuts hv hf
  have hrl : r ≤ v - m := by rw [e2]; exact d.royalty.mul_le _
  refine ⟨k, f, m, r, rest, δ, hk, hf, ⟨by rw [e1, Spec.commission_eq], e2, by omega⟩, p1, ?_, ?_⟩
  · have : m + r + rest = v := by omega
    rw [this] at p2; exact p2
  · rcases p3 with p3 | ⟨p3, p5, p6⟩
    · exact Or.inl p3
    · exact Or.inr ⟨p6, p3, p5⟩

/-- `end_auction`: the highest bid is split exactly between marketplace, NFT creator and auction
creator; the pot loses it (and nothing else unless it is reaped); the highest bidder gets the NFT. -/
theorem C21_end (hc : c.Ok) (hr : Reach c w) {n : NFTId}
    (h : dispatch c (.auc (.end_ n)) (.signed a) w = .ok w') :
    ∃ d x top, w.nfts.get n = some d ∧ w.auc.auctions.get n = some x ∧
      x.bids.getLast? = some top ∧ Spec.Sold c w w' n x d c.aucPot top.2 ∧
      w'.auc.auctions.get n = none ∧
      w'.nfts.get n = some { d with owner := top.1, st := { d.st with listed := false } } := by
  cases auc_act h with
  | @end_ _ d x top b hd hx h1 h2 h3 h4 =>
    have hok := (hr.auc hc).ok n x hx
    have hb := hok.bid top (List.mem_of_getLast? h3)
    exact ⟨d, x, top, hd, hx, h3, .of_paid hok (by omega) h4, by simp, by simp⟩

-- a late bid has extended the auction, and its creator ends it
example := C21_end Demo.cfg_ok
  (Demo.reach (auctioned ++ blocks 8 ++ [Demo.by_ 5 (.auc (.addBid 0 500))]) (by decide))
  (Demo.accepted (x := .auc (.end_ 0)) (o := .signed 1) (by decide))

/-- `buy_it_now`: the price the buyer signed is split exactly; the buyer pays it and gets the NFT. -/
theorem C21_buy (hc : c.Ok) (hr : Reach c w) {n : NFTId} {p : Balance}
    (h : dispatch c (.auc (.buyItNow n p)) (.signed a) w = .ok w') :
    ∃ d x, w.nfts.get n = some d ∧ w.auc.auctions.get n = some x ∧
      x.buyIt = some p ∧ Spec.Sold c w w' n x d a p ∧ w'.auc.auctions.get n = none ∧
      w'.nfts.get n = some { d with owner := a, st := { d.st with listed := false } } := by
  cases auc_act h with
  | @buyItNow _ _ d x b hd hx h1 h2 h3 h4 h5 =>
    have hok := (hr.auc hc).ok n x hx
    have hp := hok.buy p (by rw [h1]; simp)
    exact ⟨d, x, hd, hx, h1, .of_paid hok (by omega) h5, by simp, by simp⟩

-- account 6 buys while there are bids
example := C21_buy Demo.cfg_ok (Demo.reach auctioned (by decide))
  (Demo.accepted (x := .auc (.buyItNow 0 5000)) (o := .signed 6) (by decide))

/-- The hook: everybody but the pot receives exactly their shares of the settled auctions, and the pot
loses exactly the winning bids (and dust below the existential deposit if it is reaped).  For hook runs
without aborted payouts. -/
theorem C21_hook (hc : c.Ok) (hr : Reach c w) (hcl : Spec.Clean c w .hookAuc) :
    let w' := step c w .hookAuc
    (∀ y, y ≠ c.aucPot → w'.bal.freeOf y = w.bal.freeOf y + Spec.paidOut w w' y) ∧
    ∃ δ, w'.bal.freeOf c.aucPot + Spec.allWins w w' + δ =
        w.bal.freeOf c.aucPot + Spec.paidOut w w' c.aucPot ∧
      (δ = 0 ∨ w'.bal.freeOf c.aucPot = 0 ∧ δ < c.ed) := by
  obtain ⟨h1, δ, h2, h3, _⟩ := AucM.pops_paid (AucM.hook_pops (c := c) w) (hr.auc hc)
    (AucM.HasNft.of_good (hr.inv hc).good) hcl.settled
  refine ⟨fun y hy => ?_, δ, ?_, h3⟩
  · rw [Spec.paidOut_eq]; exact h1 y hy
  · rw [Spec.paidOut_eq, Spec.allWins_eq]; exact h2

-- an auction with two bids is due
example := C21_hook Demo.cfg_ok (Demo.reach (auctioned ++ Demo.ticks 10) (by decide))
  (Demo.clean (l := auctioned ++ Demo.ticks 10 ++ [.hookAuc]) (by decide) _ _ [] rfl)

/-- one settlement inside a run of the hook -/
inductive Spec.Settle (c : Cfg) (w w' : World) : Prop where
  /-- sold to the highest bidder, with exact shares -/
  | sold {n : NFTId} {x : Auction} {d : NFTData} {top : AccountId × Balance} :
      w.auc.auctions.get n = some x → w.nfts.get n = some d → x.bids.getLast? = some top →
      Spec.Sold c w w' n x d c.aucPot top.2 → w'.auc.auctions.get n = none →
      w'.nfts.get n = some { d with owner := top.1, st := { d.st with listed := false } } →
      (∀ m, m ≠ n → w'.auc.auctions.get m = w.auc.auctions.get m ∧ w'.nfts.get m = w.nfts.get m) →
      Settle c w w'
  /-- closed without bids; nobody pays -/
  | unsold {n : NFTId} {x : Auction} {d : NFTData} :
      w.auc.auctions.get n = some x → w.nfts.get n = some d → x.bids = [] → w'.bal = w.bal →
      w'.auc.auctions.get n = none →
      w'.nfts.get n = some { d with st := { d.st with listed := false } } →
      (∀ m, m ≠ n → w'.auc.auctions.get m = w.auc.auctions.get m ∧ w'.nfts.get m = w.nfts.get m) →
      Settle c w w'
  /-- not settled: all auctions and NFTs stay -/
  | aborted : w'.auc.auctions = w.auc.auctions → w'.nfts = w.nfts → Settle c w w'

/-- Every run of the hook, clean or not, is a sequence of settlements: whenever an auction disappears in
it, its highest bid is split exactly and the highest bidder gets the NFT, or there was no bid. -/
theorem C21_each (hc : c.Ok) (hr : Reach c w) :
    Relation.ReflTransGen (Spec.Settle c) w (step c w .hookAuc) := by
  have key : ∀ w', Relation.ReflTransGen (AucM.Pop c) w w' →
      AucM.Inv c w' ∧ Relation.ReflTransGen (Spec.Settle c) w w' := by
    intro w' h
    induction h with
    | refl => exact ⟨hr.auc hc, .refl⟩
    | @tail w1 w2 h1 h2 ih =>
      obtain ⟨hi, hs⟩ := ih
      refine ⟨hi.pop h2, hs.tail ?_⟩
      cases h2 with
      | @won n e t x d top b hq he hx hd ht hp =>
        have hok := hi.ok n x hx
        have hb := hok.bid top (List.mem_of_getLast? ht)
        exact .sold hx hd ht (.of_paid hok (by omega) hp) (by simp) (FMap.get_insert_self _ _ _)
          fun m hm => by simp [FMap.get_insert, FMap.get_erase, hm]
      | noBid hq he hx hd ht =>
        exact .unsold hx hd ht rfl (by simp) (FMap.get_insert_self _ _ _)
          fun m hm => by simp [FMap.get_insert, FMap.get_erase, hm]
      | missed => exact .aborted rfl rfl
      | stray => exact .aborted rfl rfl
  exact (key _ (AucM.hook_pops w)).2

-- an auction with two bids is due
example := C21_each Demo.cfg_ok (Demo.reach (auctioned ++ Demo.ticks 10) (by decide))

/-- The shares of an auction with a bid add up to its highest bid. -/
theorem C21_shares (hc : c.Ok) (hr : Reach c w) {n : NFTId} {x : Auction} {top : AccountId × Balance}
    (hx : w.auc.auctions.get n = some x) (ht : x.bids.getLast? = some top) :
    ∃ d k f m r rest, w.nfts.get n = some d ∧ w.mkt.mkts.get x.mkt = some k ∧
      w.auc.comm.get n = some f ∧ Spec.Shares top.2 f d m r rest ∧
      ∀ y, Spec.proceeds w n x y =
        Spec.gets y k.owner m + Spec.gets y d.creator r + Spec.gets y x.creator rest := by
  obtain ⟨d, hd⟩ := AucM.HasNft.of_good (hr.inv hc).good n x hx
  have hok := (hr.auc hc).ok n x hx
  obtain ⟨k, hk⟩ := Option.ne_none_iff_exists'.1 hok.mkt
  obtain ⟨f, hf, _⟩ := hok.comm
  have hb := hok.bid top (List.mem_of_getLast? ht)
  have hle := hok.cuts (v := top.2) (by omega) hf
  have hrl := d.royalty.mul_le (top.2 - MktM.feeOnOpt top.2 f)
  refine ⟨d, k, f, Spec.commission top.2 f, _,
    top.2 - Spec.commission top.2 f - d.royalty.mul (top.2 - Spec.commission top.2 f), hd, hk, hf,
    ⟨rfl, rfl, ?_⟩, fun y => ?_⟩
  rotate_left
  · unfold Spec.proceeds; rw [ht, hd, hk, hf]
  · rw [Spec.commission_eq]; omega

example : Reach Demo.cfg (Demo.at_ (auctioned ++ blocks 9 ++ [.tick])) ∧
    let w := Demo.at_ (auctioned ++ blocks 9 ++ [.tick])
    let w' := step Demo.cfg w .hookAuc
    w'.auc.auctions.get 0 = none ∧ Spec.allWins w w' = 400 ∧ Spec.paidOut w w' 3 = 40 ∧
    Spec.paidOut w w' 1 = 360 ∧ w'.bal.freeOf 1 = w.bal.freeOf 1 + 360 ∧
    (w'.nfts.get 0).map (·.owner) = some 2 :=
  ⟨Demo.reach _ (by decide), by decide⟩

/- C22 -/

/-- How the standing bids plus refund of any account `y` change in one step: only by its own bid, by
exactly what it pays; by its own bid removal or claim, by exactly what it receives; or by winning, by the
winning bid. -/
theorem C22 (hc : c.Ok) (hr : Reach c w) (o : Op) (ho : o.Ok c) (y : AccountId) :
    let w' := step c w o
    Spec.stakeOf w' y = Spec.stakeOf w y ∨
    (∃ n v p, o = .call (.signed y) (.auc (.addBid n v)) ∧ w'.bal.freeOf y + p = w.bal.freeOf y ∧
      Spec.stakeOf w' y = Spec.stakeOf w y + p) ∨
    (∃ n p, o = .call (.signed y) (.auc (.removeBid n)) ∧ w'.bal.freeOf y = w.bal.freeOf y + p ∧
      Spec.stakeOf w' y + p = Spec.stakeOf w y) ∨
    (∃ p, o = .call (.signed y) (.auc .claim) ∧ w'.bal.freeOf y = w.bal.freeOf y + p ∧
      Spec.stakeOf w' y + p = Spec.stakeOf w y) ∨
    (∃ n x v d, w.auc.auctions.get n = some x ∧ x.bids.getLast? = some (y, v) ∧
      o = .call (.signed x.creator) (.auc (.end_ n)) ∧ Spec.stakeOf w' y + v = Spec.stakeOf w y ∧
      w'.nfts.get n = some d ∧ d.owner = y) ∨
    (o = .hookAuc ∧ Spec.stakeOf w' y + Spec.wins w w' y = Spec.stakeOf w y) := by
  have hi := hr.auc hc
  have hg := (hr.inv hc).good
  simp only [Spec.stakeOf_eq, Spec.wins_eq]
  rcases step_auc_case w o ho with ⟨a, x, rfl, ha, hact⟩ | ⟨rfl, hact⟩ | e
  · have hap : c.aucPot ≠ a := not_pot_ne ha Cfg.pot_auc
    generalize step c w _ = w' at hact ⊢
    have hst := hact.stake (P := fun z => decide (z = y)) hg
    generalize AucM.stake (fun z => decide (z = y)) w'.auc = S at *
    cases hact with
    | create => exact Or.inl hst
    | cancel => exact Or.inl hst
    | buyItNow => exact Or.inl hst
    | @end_ n d x top b hd hx h1 h2 h3 h4 =>
      obtain ⟨x', t, e1, e2, e3⟩ := hst
      rw [hx] at e1; simp at e1; subst e1
      rw [h3] at e2; simp at e2; subst e2
      by_cases e : top.1 = y
      · refine Or.inr (Or.inr (Or.inr (Or.inr (Or.inl ⟨n, x, top.2, _, hx, ?_, ?_, ?_, FMap.get_insert_self _ _ _, e⟩))))
        · rw [h3, ← e]
        · rw [h1]
        · simpa [AucM.wt1, e] using e3
      · left; simpa [AucM.wt1, e] using e3
    | @addBid n v x b dr l q hx h1 h2 h3 h4 h5 h6 h7 =>
      obtain ⟨x', e1, e3⟩ := hst
      rw [hx] at e1; simp at e1; subst e1
      by_cases e : a = y
      · subst e
        have hok := hi.ok n x hx
        have hm := AucM.beats_max h4 hok.ladder fun y hy => (hok.bid y hy).2.1
        have hle : (AucM.findBid a x.bids).getD 0 ≤ v := by
          cases hf : AucM.findBid a x.bids with
          | none => simp
          | some u => have := hm.2 _ (AucM.findBid_mem hf); simp; omega
        have hk := Bal.transfer_keep h5 a hap.symm
        have hb := Bal.transfer_le h5 hap.symm
        rw [if_neg hap.symm, if_pos rfl] at hk
        simp only [AucM.wt1, decide_true, if_true] at e3
        refine Or.inr (Or.inl ⟨n, v, v - (AucM.findBid a x.bids).getD 0, rfl, ?_, ?_⟩)
        · show b.freeOf a + _ = _; omega
        · omega
      · left; simpa [AucM.wt1, e] using e3
    | @removeBid n x v b hx h1 h2 h3 =>
      obtain ⟨x', u, e1, e2, e3⟩ := hst
      rw [hx] at e1; simp at e1; subst e1
      rw [h2] at e2; simp at e2; subst e2
      by_cases e : a = y
      · subst e
        obtain ⟨δ, g1, _⟩ := Bal.transfer_moves h3
        have := g1 a hap.symm
        simp only [_root_.gets, if_true] at this
        exact Or.inr (Or.inr (Or.inl ⟨n, v, rfl, this, by simpa [AucM.wt1] using e3⟩))
      · left; simpa [AucM.wt1, e] using e3
    | @claim v b h1 h2 =>
      obtain ⟨u, e1, e3⟩ := hst
      rw [h1] at e1; simp at e1; subst e1
      by_cases e : a = y
      · subst e
        obtain ⟨δ, g1, _⟩ := Bal.transfer_moves h2
        have := g1 a hap.symm
        simp only [_root_.gets, if_true] at this
        exact Or.inr (Or.inr (Or.inr (Or.inl ⟨v, rfl, this, by simpa [AucM.wt1] using e3⟩)))
      · left; simpa [AucM.wt1, e] using e3
  · exact Or.inr (Or.inr (Or.inr (Or.inr (Or.inr ⟨rfl, AucM.pops_stake hact⟩))))
  · rw [e]; exact Or.inl rfl

example : Reach Demo.cfg (Demo.at_ auctioned) ∧ Spec.stakeOf (Demo.at_ auctioned) 4 = 300 ∧
    Spec.stakeOf (Demo.at_ (auctioned ++ blocks 10)) 4 = 300 ∧
    Spec.stakeOf (Demo.at_ auctioned) 2 = 400 ∧
    Spec.stakeOf (Demo.at_ (auctioned ++ blocks 10)) 2 = 0 ∧
    Spec.wins (Demo.at_ auctioned) (Demo.at_ (auctioned ++ blocks 10)) 2 = 400 :=
  ⟨Demo.reach _ (by decide), by decide, by decide, by decide, by decide, by decide⟩

/- C23 -/

/-- When the pot covers its obligations, a claim is paid in full, also to an account that does not
exist, and nobody else's balance changes. -/
theorem C23 (hc : c.Ok) (hr : Reach c w) (hs : Spec.Covered c 0 w) {v : Balance}
    (h : w.auc.claims.get a = some v) :
    ∃ w', dispatch c (.auc .claim) (.signed a) w = .ok w' ∧
      w'.bal.freeOf a = w.bal.freeOf a + v ∧ w'.auc.claims.get a = none ∧
      (∀ y, y ≠ a → y ≠ c.aucPot → w'.bal.freeOf y = w.bal.freeOf y) ∧ Spec.Covered c 0 w' := by
  have hi := hr.auc hc
  obtain ⟨hv, hp⟩ := hi.claims a v h
  have hap : c.aucPot ≠ a := not_pot_ne hp Cfg.pot_auc
  have hle : v ≤ Spec.owed w := by
    unfold Spec.owed
    exact Nat.le_trans (FMap.sumBy_le_of_get (f := fun _ v => v) h) (Nat.le_add_right _ _)
  have hs' := hs
  unfold Spec.Covered at hs
  obtain ⟨b, hb, _⟩ := Bal.transfer_solvent (o := 0) (ed := c.ed) (b := w.bal) (s := c.aucPot) (d := a)
    (v := v) (hr.micro.balInv.pots _ Cfg.pot_auc) (by omega) (Or.inl rfl) (Or.inr (by omega)) hap
  have hd : dispatch c (.auc .claim) (.signed a) w = .ok { w with
      bal := b
      auc := { w.auc with claims := w.auc.claims.erase a } } := by
    simp [dispatch, signedCall, AucM.call, AucM.claim, h, getOr, hb, World.putBal, bind, Except.bind,
      pure, Except.pure]
  obtain ⟨δ, g1, _⟩ := Bal.transfer_moves hb
  refine ⟨_, hd, ?_, by simp, fun y hy hy' => ?_, ?_⟩
  · have := g1 a hap.symm
    simpa only [_root_.gets, if_true] using this
  · have := g1 y hy'
    simpa only [_root_.gets, hy, if_false, Nat.add_zero] using this
  · have := AucM.Solvent.call (Or.inl rfl) (Spec.covered_iff.1 hs') hi (hr.inv hc).good hp
      (auc_act hd)
    exact Spec.covered_iff.2 this

example : Reach Demo.cfg (Demo.at_ (auctioned ++ blocks 10)) ∧
    Spec.Covered Demo.cfg 0 (Demo.at_ (auctioned ++ blocks 10)) ∧
    (Demo.at_ (auctioned ++ blocks 10)).auc.claims.get 4 = some 300 :=
  ⟨Demo.reach _ (by decide), by unfold Spec.Covered; decide, by decide⟩

/- C24 -/

/-- what may happen to the auction `x` of NFT `n` with data `d`, and when -/
inductive Spec.Turn (c : Cfg) (w : World) (n : NFTId) (x : Auction) (d : NFTData) (o : Op)
    (w' : World) : Prop where
  /-- nothing -/
  | stays : w'.auc.auctions.get n = some x → Turn c w n x d o w'
  /-- its creator cancels it before the start -/
  | cancelled : o = .call (.signed x.creator) (.auc (.cancel n)) → w.now < x.start →
      w'.auc.auctions.get n = none → (∃ d', w'.nfts.get n = some d' ∧ d'.owner = d.owner) →
      Turn c w n x d o w'
  /-- somebody else bids after the start; start, prices, creator and marketplace stay, and the end
  does not move back -/
  | bid {y : AccountId} {v : Balance} {x' : Auction} : o = .call (.signed y) (.auc (.addBid n v)) →
      y ≠ x.creator → x.start ≤ w.now → w'.auc.auctions.get n = some x' → x.fin ≤ x'.fin →
      (x'.fin ≠ x.fin → x'.extended = true) → (x'.extended ≠ x.extended → x.fin < w.now + c.grace) →
      x' = { x with bids := x'.bids, fin := x'.fin, extended := x'.extended } → Turn c w n x d o w'
  /-- a bidder withdraws before the ending period; only their bid goes -/
  | withdrawn {y : AccountId} : o = .call (.signed y) (.auc (.removeBid n)) →
      w.now + c.ending < x.fin → w'.auc.auctions.get n =
        some { x with bids := x.bids.filter fun z => decide (z.1 ≠ y) } → Turn c w n x d o w'
  /-- its creator ends it after an extension; the highest bidder gets the NFT -/
  | ended {y : AccountId} {v : Balance} {d' : NFTData} :
      o = .call (.signed x.creator) (.auc (.end_ n)) → x.extended = true →
      x.bids.getLast? = some (y, v) → w'.auc.auctions.get n = none →
      w'.nfts.get n = some d' → d'.owner = y → Turn c w n x d o w'
  /-- somebody else buys it after the start at the buy-it-now price, which is above all bids -/
  | bought {y : AccountId} {p : Balance} {d' : NFTData} :
      o = .call (.signed y) (.auc (.buyItNow n p)) → y ≠ x.creator → x.start ≤ w.now →
      x.buyIt = some p → (∀ z ∈ x.bids, z.2 < p) → w'.auc.auctions.get n = none →
      w'.nfts.get n = some d' → d'.owner = y → Turn c w n x d o w'
  /-- the hook settles it at or after the end; the highest bidder gets the NFT -/
  | won {y : AccountId} {v : Balance} {d' : NFTData} : o = .hookAuc → x.fin ≤ w.now →
      x.bids.getLast? = some (y, v) → w'.auc.auctions.get n = none →
      w'.nfts.get n = some d' → d'.owner = y → Turn c w n x d o w'
  /-- the hook closes it without bids at or after the end -/
  | expired {d' : NFTData} : o = .hookAuc → x.fin ≤ w.now → x.bids = [] →
      w'.auc.auctions.get n = none → w'.nfts.get n = some d' → d'.owner = d.owner → Turn c w n x d o w'

/-- Everything that can happen to an auction in one step. -/
theorem C24 (hc : c.Ok) (hr : Reach c w) (o : Op) (ho : o.Ok c) {n : NFTId} {x : Auction}
    {d : NFTData} (hx : w.auc.auctions.get n = some x) (hd : w.nfts.get n = some d) :
    Spec.Turn c w n x d o (step c w o) := by
  have hok := (hr.auc hc).ok n x hx
  have ht := step_auc_turn hc hr o ho hx hd
  generalize step c w o = w' at ht ⊢
  cases ht with
  | stay h => exact .stays h
  | cancel h1 h2 h3 => exact .cancelled rfl h1 h2 ⟨_, h3, rfl⟩
  | bid h1 h2 h3 h4 h5 =>
    refine .bid rfl h1 h2 h5 ?_ ?_ ?_ rfl
    · simp only; split <;> omega
    · simp only; split <;> simp_all
    · simp only
      by_cases hl : x.fin - w.now < c.grace
      · intro _; omega
      · simp [hl]
  | withdraw h1 h2 h3 => exact .withdrawn rfl (by omega) h3
  | end_ h1 h2 h3 h4 => exact .ended rfl h1 h2 h3 h4 rfl
  | buy h1 h2 h3 h4 h5 h6 =>
    refine .bought rfl h2 h3 h1 (fun z hz => ?_) h5 h6 rfl
    cases hl : x.bids.getLast? with
    | none => simp at hl; rw [hl] at hz; simp at hz
    | some top =>
      have := h4 top (by rw [hl]; simp)
      rcases AucM.last_max hok.ladder hl hz with rfl | h <;> omega
  | won h1 h2 h3 h4 h5 => exact .won rfl h1 h2 h4 h5 rfl
  | noBid h1 h2 h3 h4 h5 => exact .expired rfl h1 h2 h4 h5 rfl

-- account 6 buys
example := C24 Demo.cfg_ok (Demo.reach auctioned (by decide)) (Demo.by_ 6 (.auc (.buyItNow 0 5000)))
  (by decide) (n := 0) (x := ⟨1, 0, 10, 100, some 5000, [(4, 300), (2, 400)], 0, false⟩) rfl rfl

/-- Every auction concerns an existing NFT, so `C24` applies to all of them. -/
theorem C24_nft (hc : c.Ok) (hr : Reach c w) {n : NFTId} {x : Auction}
    (hx : w.auc.auctions.get n = some x) : ∃ d, w.nfts.get n = some d ∧ d.owner = x.creator ∧
      d.st.listed = true := by
  obtain ⟨d, hd⟩ := AucM.HasNft.of_good (hr.inv hc).good n x hx
  have hg := ((hr.inv hc).good n).nft d hd
  exact ⟨d, hd, (hg.creator x hx).symm,
    hg.listed.2 (Or.inr (by show w.auc.auctions.get n ≠ none; rw [hx]; simp))⟩

example : Reach Demo.cfg (Demo.at_ auctioned) ∧ (Demo.at_ auctioned).nfts.get 0 ≠ none ∧
    (Demo.at_ auctioned).auc.auctions.get 0 ≠ none ∧
    (Demo.at_ (auctioned ++ [Demo.by_ 1 (.auc (.cancel 0))])).auc.auctions.get 0 ≠ none ∧
    (Demo.at_ (auctioned ++ blocks 8 ++ [Demo.by_ 2 (.auc (.removeBid 0))])).auc.auctions.get 0 =
      (Demo.at_ auctioned).auc.auctions.get 0 ∧
    ((Demo.at_ (auctioned ++ blocks 8 ++ [Demo.by_ 5 (.auc (.addBid 0 500)),
      Demo.by_ 1 (.auc (.end_ 0))])).nfts.get 0).map (·.owner) = some 5 :=
  ⟨Demo.reach _ (by decide), by decide, by decide, by decide, by decide, by decide⟩

/- C25 -/

/-- What holds of C25: an accepted bid no later than the end block leaves at least the grace period.
Missing: bids on an auction whose end block has already passed. -/
theorem C25_partial {n : NFTId} {v : Balance} {x x' : Auction}
    (h : dispatch c (.auc (.addBid n v)) (.signed a) w = .ok w')
    (hx : w.auc.auctions.get n = some x) (hx' : w'.auc.auctions.get n = some x')
    (hfin : w.now ≤ x.fin) : w.now + c.grace ≤ x'.fin := by
  cases auc_act h with
  | @addBid _ _ y b dr l q hy h1 h2 h3 h4 h5 h6 h7 =>
    rw [hx] at hy; simp at hy; subst hy
    simp only [FMap.get_insert, if_true, Option.some.injEq] at hx'
    rw [AucM.extend_eq] at hx'
    subst hx'
    simp only
    split <;> (simp only; omega)

-- a bid two blocks before the end
example := C25_partial
  (Demo.accepted (l := auctioned ++ blocks 8) (x := .auc (.addBid 0 500)) (o := .signed 5) (by decide))
  (x := ⟨1, 0, 10, 100, some 5000, [(4, 300), (2, 400)], 0, false⟩)
  (x' := ⟨1, 0, 13, 100, some 5000, [(2, 400), (5, 500)], 0, true⟩) rfl rfl (by decide)

/-- A bid accepted at or after the end block postpones the end by exactly the grace period, counted from
the old end block and not from the current block. -/
theorem C25_late {n : NFTId} {v : Balance} {x x' : Auction}
    (h : dispatch c (.auc (.addBid n v)) (.signed a) w = .ok w')
    (hx : w.auc.auctions.get n = some x) (hx' : w'.auc.auctions.get n = some x')
    (hfin : x.fin ≤ w.now) : x'.fin = x.fin + c.grace := by
  cases auc_act h with
  | @addBid _ _ y b dr l q hy h1 h2 h3 h4 h5 h6 h7 =>
    rw [hx] at hy; simp at hy; subst hy
    simp only [FMap.get_insert, if_true, Option.some.injEq] at hx'
    rw [AucM.extend_eq] at hx'
    subst hx'
    simp only
    split <;> (simp only; omega)

-- a bid two blocks after the end
example := C25_late
  (Demo.accepted (l := auctioned ++ Demo.ticks 12) (x := .auc (.addBid 0 500)) (o := .signed 5) (by decide))
  (x := ⟨1, 0, 10, 100, some 5000, [(4, 300), (2, 400)], 0, false⟩)
  (x' := ⟨1, 0, 15, 100, some 5000, [(2, 400), (5, 500)], 0, true⟩) rfl rfl (by decide)

/-- The claim of C25 is false of the code: the auction of `doomed` is still there at block 12, two blocks
after its end, with a failed payout; a bid then moves the end to 15 only, although the grace period
would require 17. -/
theorem C25_fails : ∃ w w' x', Reach Demo.cfg w ∧
    dispatch Demo.cfg (.auc (.addBid 0 200)) (.signed 4) w = .ok w' ∧
    w'.auc.auctions.get 0 = some x' ∧ x'.fin < w.now + Demo.cfg.grace := by
  have h : (dispatch Demo.cfg (.auc (.addBid 0 200)) (.signed 4) (Demo.at_ (doomed ++ blocks 12))).toOption.map
      (fun w' => (w'.auc.auctions.get 0).map (·.fin)) = some (some 15) ∧
      (Demo.at_ (doomed ++ blocks 12)).now = 12 := by decide
  obtain ⟨h1, h2⟩ := h
  cases hd : dispatch Demo.cfg (.auc (.addBid 0 200)) (.signed 4) (Demo.at_ (doomed ++ blocks 12)) with
  | error e => rw [hd] at h1; simp [Except.toOption] at h1
  | ok w' =>
    rw [hd] at h1
    simp only [Except.toOption, Option.map_some, Option.some.injEq] at h1
    cases hx : w'.auc.auctions.get 0 with
    | none => rw [hx] at h1; simp at h1
    | some x' =>
      rw [hx] at h1; simp at h1
      exact ⟨_, w', x', Demo.reach _ (by decide), hd, hx, by rw [h1, h2]; decide⟩

example : Reach Demo.cfg (Demo.at_ (auctioned ++ blocks 8)) ∧ (Demo.at_ (auctioned ++ blocks 8)).now = 8 ∧
    ((Demo.at_ (auctioned ++ blocks 8 ++ [Demo.by_ 5 (.auc (.addBid 0 500))])).auc.auctions.get 0).map
      (·.fin) = some 13 :=
  ⟨Demo.reach _ (by decide), by decide, by decide⟩

/- C26 -/

/-- The schedule is sorted by block, has no NFT twice, stays within the limit, and every entry belongs
to an auction with this end block. -/
theorem C26_sorted (hc : c.Ok) (hr : Reach c w) :
    w.auc.deadlines.Pairwise (fun x y => x.2 ≤ y.2) ∧ (w.auc.deadlines.map Prod.fst).Nodup ∧
    w.auc.deadlines.length ≤ c.aucLimit ∧
    ∀ n e, (n, e) ∈ w.auc.deadlines → ∃ x, w.auc.auctions.get n = some x ∧ x.fin = e :=
  let h := hr.auc hc
  ⟨h.wf.sorted, h.wf.nd, h.len, h.inQ⟩

-- a scheduled auction
example := C26_sorted Demo.cfg_ok (Demo.reach auctioned (by decide))

/-- one step with a clean hook run -/
theorem step_scheduled (hc : c.Ok) (hr : Reach c w)
    (hs : ∀ n x, w.auc.auctions.get n = some x → Spec.Scheduled w n) (o : Op) (ho : o.Ok c)
    (hcl : Spec.Clean c w o) :
    ∀ n x, (step c w o).auc.auctions.get n = some x → Spec.Scheduled (step c w o) n := by
  intro n x hx
  have hi := hr.auc hc
  have hi' := (hr.step o ho).auc hc
  rw [Spec.scheduled_iff]
  have hs' : ∀ n x, w.auc.auctions.get n = some x → n ∈ Queue.ids w.auc.deadlines :=
    fun n x h => Spec.scheduled_iff.1 (hs n x h)
  rcases step_auc_case w o ho with ⟨a, y, rfl, ha, hact⟩ | ⟨rfl, hact⟩ | e
  · clear hi' hcl
    generalize step c w _ = w' at hact hx ⊢
    cases hact with
    | @create m k s e p bi d km q g1 g2 g3 g4 g5 g6 hd hown hl hk hal hcov hq =>
      obtain ⟨_, rfl⟩ := Queue.insert_some hq
      simp only [Queue.mem_ids_ins]
      simp only [FMap.get_insert] at hx
      split at hx
      · left; assumption
      · exact Or.inr (hs' n x hx)
    | cancel =>
      simp only [FMap.get_erase] at hx
      split at hx
      · simp at hx
      · exact (Queue.mem_ids_remove hi.wf).2 ⟨hs' n x hx, by assumption⟩
    | end_ =>
      simp only [FMap.get_erase] at hx
      split at hx
      · simp at hx
      · exact (Queue.mem_ids_remove hi.wf).2 ⟨hs' n x hx, by assumption⟩
    | buyItNow =>
      simp only [FMap.get_erase] at hx
      split at hx
      · simp at hx
      · exact (Queue.mem_ids_remove hi.wf).2 ⟨hs' n x hx, by assumption⟩
    | @addBid m v y b dr l q hy h1 h2 h3 h4 h5 h6 h7 =>
      have hin : n ∈ Queue.ids w.auc.deadlines := by
        simp only [FMap.get_insert] at hx
        split at hx
        · subst_vars; exact hs' _ _ hy
        · exact hs' n x hx
      simp only
      rw [AucM.extend_eq] at h7
      split at h7
      · simp only [AucM.updateDeadline] at h7
        rcases Queue.update_ok h7 with ⟨_, rfl⟩ | ⟨_, rfl⟩
        · exact hin
        · rw [Queue.mem_ids_ins, Queue.mem_ids_remove hi.wf]
          by_cases e : n = m
          · exact Or.inl e
          · exact Or.inr ⟨hin, e⟩
      · simp only [AucM.updateDeadline, Except.ok.injEq] at h7
        subst h7; exact hin
    | removeBid hy =>
      simp only [FMap.get_insert] at hx
      split at hx
      · subst_vars; exact hs' _ _ hy
      · exact hs' n x hx
    | claim => exact hs' n x hx
  · by_contra hn
    have := hcl.settled n (hs' n x (AucM.pops_sub hact hx)) hn
    rw [hx] at this; simp at this
  · rw [e] at hx ⊢; exact hs' n x hx

/-- What holds of C26 in the other direction: along every history whose hook runs settle all auctions
they take off the schedule, every auction is scheduled exactly at its end block.  Missing: hook runs in
which a payout aborts. -/
theorem C26_partial (hc : c.Ok) (hg : Genesis c w) (l : List Op) (hl : ∀ o ∈ l, o.Ok c)
    (hcl : Spec.AllClean c w l) {n : NFTId} {x : Auction}
    (hx : (run c w l).auc.auctions.get n = some x) : (n, x.fin) ∈ (run c w l).auc.deadlines := by
  have h0 : ∀ n x, w.auc.auctions.get n = some x → Spec.Scheduled w n := by
    intro n x h; rw [hg.auc.1] at h; simp at h
  have hr := Reach.init hg
  have hr' := hr.run l hl
  have hs : ∀ n x, (run c w l).auc.auctions.get n = some x → Spec.Scheduled (run c w l) n := by
    clear hx hr' hg
    induction l generalizing w with
    | nil => exact h0
    | cons o t ih =>
      have ho := hl o (by simp)
      refine ih (fun y hy => hl y (by simp [hy])) ?_
        (step_scheduled hc hr h0 o ho (hcl [] o t rfl)) (hr.step o ho)
      intro l1 o' l2 e
      exact hcl (o :: l1) o' l2 (by rw [e]; rfl)
  obtain ⟨e, he⟩ := hs n x hx
  obtain ⟨x', h1, h2⟩ := (hr'.auc hc).inQ n e he
  rw [hx] at h1; simp at h1; subst h1; subst h2; exact he

-- an auction that is two blocks before its end
example := C26_partial Demo.cfg_ok Demo.genesis (auctioned ++ blocks 8) (by decide) (Demo.clean (by decide))
  (n := 0) (x := ⟨1, 0, 10, 100, some 5000, [(4, 300), (2, 400)], 0, false⟩) rfl

/-- The claim of C26 is false of the code: after an aborted payout the auction stays without any
scheduled end. -/
theorem C26_fails : ∃ w, Reach Demo.cfg w ∧ w.auc.auctions.get 0 ≠ none ∧ w.auc.deadlines = [] :=
  ⟨Demo.at_ (doomed ++ blocks 10), Demo.reach _ (by decide), by decide, by decide⟩

/-- An auction without scheduled end has begun, and only the hook can have taken it off: every other
operation keeps auctions scheduled. -/
theorem C26_calls (hc : c.Ok) (hr : Reach c w)
    (hs : ∀ n x, w.auc.auctions.get n = some x → Spec.Scheduled w n) (o : Op) (ho : o.Ok c)
    (hne : o ≠ .hookAuc) :
    ∀ n x, (step c w o).auc.auctions.get n = some x → Spec.Scheduled (step c w o) n :=
  step_scheduled hc hr hs o ho fun h => absurd h hne

example : Reach Demo.cfg (Demo.at_ auctioned) ∧ (Demo.at_ auctioned).auc.deadlines = [(0, 10)] :=
  ⟨Demo.reach _ (by decide), by decide⟩

/- C27 -/

/-- An auction at position `i` of the schedule whose end block has passed is taken up during the first
`i / max 1 ActionsInBlockLimit + 1` runs of the hook, whatever else happens, unless it is ended by its
creator, bought, or bid on before.  It is unchanged until then; if the hook run is clean, it is settled:
the highest bidder has the NFT, or the seller keeps it if there was no bid. -/
theorem C27 (hc : c.Ok) (hr : Reach c w) {n : NFTId} {b : Block} {i : Nat} {x : Auction}
    (hx : w.auc.auctions.get n = some x) (hi : w.auc.deadlines[i]? = some (n, b)) (hb : b ≤ w.now)
    (l : List Op) (hl : ∀ o ∈ l, o.Ok c)
    (hno : ∀ o ∈ l, ∀ a, o ≠ .call (.signed a) (.auc (.end_ n)) ∧
      (∀ p, o ≠ .call (.signed a) (.auc (.buyItNow n p))) ∧
      ∀ v, o ≠ .call (.signed a) (.auc (.addBid n v)))
    (hk : i / max 1 c.aucActions < Spec.aucRuns l) :
    ∃ l1 l2, l = l1 ++ .hookAuc :: l2 ∧ Spec.aucRuns l1 ≤ i / max 1 c.aucActions ∧
      (run c w l1).auc.auctions.get n = some x ∧
      ¬ Spec.Scheduled (run c w (l1 ++ [.hookAuc])) n ∧
      (Spec.Clean c (run c w l1) .hookAuc →
        (run c w (l1 ++ [.hookAuc])).auc.auctions.get n = none ∧
        ∃ d, (run c w (l1 ++ [.hookAuc])).nfts.get n = some d ∧
          ((∃ v, x.bids.getLast? = some (d.owner, v)) ∨ x.bids = [] ∧ d.owner = x.creator)) := by
  replace hi : Queue.At w.auc.deadlines n b i := Queue.At.iff.2 hi
  induction l generalizing w i with
  | nil => simp [Spec.aucRuns] at hk
  | cons o t ih =>
    have hv := hr.auc hc
    have ho := hl o (by simp)
    obtain ⟨d, hd, hown, _⟩ := C24_nft hc hr hx
    obtain ⟨x', hx', hfin⟩ := hv.inQ n b hi.mem
    rw [hx] at hx'; simp at hx'; subst hx'
    have hcount : Spec.aucRuns (o :: t) = Spec.aucRuns [o] + Spec.aucRuns t := by
      simp only [Spec.aucRuns, List.countP_cons, List.countP_nil]; omega
    have cont : ∀ j, (o = .hookAuc → max 1 c.aucActions ≤ i ∧ j ≤ i - max 1 c.aucActions) →
        (o ≠ .hookAuc → j ≤ i) → Queue.At (step c w o).auc.deadlines n b j →
        (step c w o).auc.auctions.get n = some x →
        ∃ l1 l2, o :: t = l1 ++ .hookAuc :: l2 ∧ Spec.aucRuns l1 ≤ i / max 1 c.aucActions ∧
          (run c w l1).auc.auctions.get n = some x ∧
          ¬ Spec.Scheduled (run c w (l1 ++ [.hookAuc])) n ∧
          (Spec.Clean c (run c w l1) .hookAuc →
            (run c w (l1 ++ [.hookAuc])).auc.auctions.get n = none ∧
            ∃ d, (run c w (l1 ++ [.hookAuc])).nfts.get n = some d ∧
              ((∃ v, x.bids.getLast? = some (d.owner, v)) ∨ x.bids = [] ∧ d.owner = x.creator)) := by
      intro j hj1 hj2 hat hxs
      have hK : 0 < max 1 c.aucActions := by omega
      have hj : j / max 1 c.aucActions + Spec.aucRuns [o] ≤ i / max 1 c.aucActions := by
        by_cases e : o = .hookAuc
        · subst e
          obtain ⟨h1, h2⟩ := hj1 rfl
          have h3 := Nat.div_le_div_right (c := max 1 c.aucActions) h2
          have := Nat.sub_add_cancel h1
          have h4 : i / max 1 c.aucActions = (i - max 1 c.aucActions) / max 1 c.aucActions + 1 := by
            conv_lhs => rw [← this]
            rw [Nat.add_div_right _ hK]
          have h5 : Spec.aucRuns [Op.hookAuc] = 1 := rfl
          omega
        · have h1 := Nat.div_le_div_right (c := max 1 c.aucActions) (hj2 e)
          have : Spec.aucRuns [o] = 0 := by
            cases o <;> first | rfl | exact absurd rfl e
          omega
      obtain ⟨l1, l2, rfl, f0, f1, f2, f3⟩ := ih (hr.step o ho) hxs
        (Nat.le_trans hb (step_now_le w o)) (fun y hy => hl y (by simp [hy]))
        (fun y hy => hno y (by simp [hy])) (i := j) (by omega) hat
      refine ⟨o :: l1, l2, rfl, ?_, f1, f2, f3⟩
      have : Spec.aucRuns (o :: l1) = Spec.aucRuns [o] + Spec.aucRuns l1 := by
        simp only [Spec.aucRuns, List.countP_cons, List.countP_nil]; omega
      omega
    by_cases hh : o = .hookAuc
    · subst hh
      have hat := (AucM.pops_at (AucM.hook_pops (c := c) w) hv hx hd).1
      rcases AucM.hook_at (c := c) hv.wf hi hb with hout | ⟨hge, j, hj, hA⟩
      · refine ⟨[], t, rfl, Nat.zero_le _, hx, ?_, fun hcl => ?_⟩
        · rw [Spec.scheduled_iff]; exact hout
        · have hgone := hcl.settled n (Queue.mem_ids.2 ⟨b, hi.mem⟩) hout
          refine ⟨hgone, ?_⟩
          cases hat with
          | stay e1 =>
            have : (AucM.hook c w).auc.auctions.get n = none := hgone
            rw [this] at e1; simp at e1
          | won e1 _ _ _ _ e6 => exact ⟨_, e6, Or.inl ⟨_, e1⟩⟩
          | noBid e1 _ _ _ _ e6 => exact ⟨_, e6, Or.inr ⟨e1, hown⟩⟩
          | missed _ _ _ _ e1 =>
            have : (AucM.hook c w).auc.auctions.get n = none := hgone
            rw [this] at e1; simp at e1
      · refine cont j (fun _ => ⟨hge, hj⟩) (fun h => absurd rfl h) hA ?_
        have hin := Queue.mem_ids.2 ⟨b, hA.mem⟩
        cases hat with
        | stay e1 => exact e1
        | won _ _ _ h => exact absurd hin h
        | noBid _ _ _ h => exact absurd hin h
        | missed _ _ _ h => exact absurd hin h
    · have hno' := hno o (by simp)
      obtain ⟨j, hj, hA⟩ := step_auc_at hc hr o ho hi hb hh (fun a => (hno' a).1)
        (fun a => (hno' a).2.1) (fun a => (hno' a).2.2)
      refine cont j (fun h => absurd h hh) (fun _ => hj) hA ?_
      have hok := hv.ok n x hx
      have hturn := step_auc_turn hc hr o ho hx hd
      generalize step c w o = w' at hturn ⊢
      cases hturn with
      | stay h => exact h
      | cancel h => have := hok.times; omega
      | bid => exact absurd rfl ((hno' _).2.2 _)
      | withdraw h => omega
      | end_ => exact absurd rfl (hno' _).1
      | buy => exact absurd rfl ((hno' _).2.1 _)
      | won => exact absurd rfl hh
      | noBid => exact absurd rfl hh

example : Reach Demo.cfg (Demo.at_ (auctioned ++ Demo.ticks 10)) ∧
    (Demo.at_ (auctioned ++ Demo.ticks 10)).auc.deadlines[0]? = some (0, 10) ∧
    (Demo.at_ (auctioned ++ Demo.ticks 10)).now = 10 ∧ Spec.aucRuns [.hookRent, .hookAuc] = 1 ∧
    (Demo.at_ (auctioned ++ Demo.ticks 10 ++ [.hookRent, .hookAuc])).auc.auctions.get 0 = none :=
  ⟨Demo.reach _ (by decide), by decide, by decide, rfl, by decide⟩

import Verif.Model.Machine
import Verif.Proofs.Horizon
import Verif.Proofs.AucHook
import Verif.Proofs.HookScope
import Verif.Proofs.TeeStake
import Verif.Proofs.RewardMono
/-
Computing with machine integers and with unbounded numbers gives the same, as long as everything fits.
-/
variable {c : Cfg} {w w' : World} {a : AccountId}

namespace Mach

theorem add32_eq {a b : Nat} (h : a + b ≤ U32MAX) : add32 a b = a + b :=
  Nat.mod_eq_of_lt (by unfold U32MAX at h; omega)

theorem sub32_eq {a b : Nat} (h : b ≤ a) (ha : a ≤ U32MAX) : sub32 a b = a - b := by
  unfold sub32; unfold U32MAX at ha
  have e : a + (2 ^ 32 - b) = a - b + 2 ^ 32 := by omega
  rw [e, Nat.add_mod_right, Nat.mod_eq_of_lt (by omega)]

theorem bind_eq {α β : Type} {m : Except Err α} {f g : α → Except Err β} (h : ∀ x, m = .ok x → f x = g x) :
    m >>= f = m >>= g := by
  cases m with
  | error e => rfl
  | ok x => exact h x rfl

/-! ### auctions -/

theorem addClaim_eq {m : FMap AccountId Balance} {y v} (h : m.sumBy (AucM.wt1 fun _ => true) + v ≤ U128MAX) :
    addClaim m y v = AucM.addClaim m y v := by
  have h1 : (m.get y).getD 0 ≤ m.sumBy (AucM.wt1 fun _ => true) := by
    cases e : m.get y with
    | none => exact Nat.zero_le _
    | some z =>
      have := FMap.sumBy_le_of_get (f := AucM.wt1 fun _ => true) e
      simpa [AucM.wt1] using this
  unfold addClaim AucM.addClaim satAdd128
  rw [Nat.min_eq_left (by omega)]

theorem addClaims_eq {m : FMap AccountId Balance} {l}
    (h : m.sumBy (AucM.wt1 fun _ => true) + AucM.wt (fun _ => true) l ≤ U128MAX) :
    addClaims m l = AucM.addClaims m l := by
  induction l generalizing m with
  | nil => rfl
  | cons x t ih =>
    simp only [AucM.wt_cons] at h
    have e : addClaim m x.1 x.2 = AucM.addClaim m x.1 x.2 :=
      addClaim_eq (by simp only [AucM.wt1, if_true] at h ⊢; omega)
    show addClaims (addClaim m x.1 x.2) t = AucM.addClaims (AucM.addClaim m x.1 x.2) t
    rw [e]
    exact ih (by rw [AucM.claim_add]; omega)

theorem owed_bids {n x} (h : AucM.owed w ≤ U128MAX) (hx : w.auc.auctions.get n = some x) :
    w.auc.claims.sumBy (AucM.wt1 fun _ => true) + AucM.wt (fun _ => true) x.bids ≤ U128MAX := by
  have := AucM.auctions_erase (P := fun _ => true) hx
  unfold AucM.owed AucM.stake at h; omega

theorem bids_eq {n x} (h : AucM.owed w ≤ U128MAX) (hx : w.auc.auctions.get n = some x) :
    addClaims w.auc.claims x.bids = AucM.addClaims w.auc.claims x.bids := addClaims_eq (owed_bids h hx)

theorem losers_eq {n x top} (h : AucM.owed w ≤ U128MAX) (hx : w.auc.auctions.get n = some x)
    (ht : x.bids.getLast? = some top) :
    addClaims w.auc.claims x.bids.dropLast = AucM.addClaims w.auc.claims x.bids.dropLast := addClaims_eq (by
  have := owed_bids h hx
  have := AucM.wt_last (P := fun _ => true) ht
  omega)

theorem extend_eq {x : Auction} {now : Block} (h : max x.fin (now + c.grace) ≤ U32MAX) :
    extend c x now = AucM.extend c x now := by
  unfold extend AucM.extend
  split
  · have e : satAdd32 x.fin (c.grace - (x.fin - now)) = x.fin + (c.grace - (x.fin - now)) := by
      unfold satAdd32; rw [Nat.min_eq_left]; omega
    rw [e]
  · rfl

theorem aucCall_eq (ho : AucM.owed w ≤ U128MAX) (hn : AucM.Near c w)
    (hb : w.now + max (c.maxDelay + c.maxDur) c.grace ≤ U32MAX) (x : AucM.Call) :
    aucCall c w a x = AucM.call c w a x := by
  cases x with
  | cancel n =>
    refine bind_eq fun d _ => bind_eq fun x hx => bind_eq fun _ _ => bind_eq fun _ _ => ?_
    simp only [World.putNft, bids_eq ho (Exec.getOr_ok.1 hx)]
  | end_ n =>
    refine bind_eq fun d _ => bind_eq fun x hx => bind_eq fun _ _ => bind_eq fun _ _ => bind_eq fun t ht => bind_eq fun b _ => ?_
    simp only [World.putNft, World.putBal, losers_eq ho (Exec.getOr_ok.1 hx) (Exec.getOr_ok.1 ht)]
  | addBid n v =>
    refine bind_eq fun x hx => bind_eq fun _ _ => bind_eq fun _ _ => bind_eq fun _ _ => bind_eq fun _ _ => bind_eq fun b _ =>
      bind_eq fun y hy => ?_
    have hx := Exec.getOr_ok.1 hx
    have h1 := (hn n x hx).2
    obtain ⟨dr, l⟩ := y
    have e : extend c { x with bids := l } w.now = AucM.extend c { x with bids := l } w.now :=
      extend_eq (by dsimp only; omega)
    dsimp only
    rw [e]
    refine bind_eq fun q _ => ?_
    have e2 : addClaimOpt w.auc.claims dr = AucM.addClaimOpt w.auc.claims dr := by
      have h2 := owed_bids ho hx
      have h3 := AucM.wt_removeBid (P := fun _ => true) (a := a) x.bids
      rcases AucM.insertBid_ok hy with ⟨rfl, _⟩ | ⟨z, t, rfl, e, _⟩
      · rfl
      · refine addClaim_eq ?_
        rw [e] at h3
        simp only [AucM.wt_cons, AucM.wt1, if_true] at h2 h3 ⊢
        omega
    simp only [World.putBal, e2]
  | buyItNow n p =>
    refine bind_eq fun d _ => bind_eq fun x hx => bind_eq fun _ _ => bind_eq fun _ _ => bind_eq fun _ _ => bind_eq fun _ _ =>
      bind_eq fun _ _ => bind_eq fun b _ => ?_
    simp only [World.putNft, World.putBal, bids_eq ho (Exec.getOr_ok.1 hx)]
  | _ => rfl

theorem settleOne_eq (ho : AucM.owed w ≤ U128MAX) (n : NFTId) :
    settleOne c w n = AucM.settleOne c w n ∧ AucM.owed (AucM.settleOne c w n).1 ≤ AucM.owed w := by
  unfold settleOne AucM.settleOne
  cases hx : w.auc.auctions.get n with
  | none => exact ⟨rfl, Nat.le_refl _⟩
  | some x =>
    dsimp only
    cases hd : w.nfts.get n with
    | none => exact ⟨rfl, Nat.le_refl _⟩
    | some d =>
      dsimp only
      have he := AucM.auctions_erase (P := fun _ => true) hx
      cases ht : x.bids.getLast? with
      | none =>
        refine ⟨rfl, ?_⟩
        simp only [AucM.owed, AucM.stake, World.putNft, World.ev]; omega
      | some top =>
        dsimp only
        rcases hp : AucM.payForNft c w n c.aucPot top.2 d x with ⟨b, e | ⟨⟩⟩
        · exact ⟨rfl, Nat.le_refl _⟩
        · refine ⟨?_, ?_⟩
          · simp only [World.putNft, World.putBal, losers_eq ho hx ht]
          · have := AucM.wt_last (P := fun _ => true) ht
            simp only [AucM.owed, AucM.stake, World.putNft, World.putBal, World.ev, AucM.claims_add]; omega

theorem aucLoop_eq : ∀ (q : Queue) (k : Nat) (w : World), AucM.owed w ≤ U128MAX →
    aucLoop c w q k = AucM.hookLoop c w q k := by
  intro q
  induction q with
  | nil => intro k w _; rfl
  | cons y t ih =>
    intro k w ho
    obtain ⟨n, b⟩ := y
    obtain ⟨e, hle⟩ := settleOne_eq (c := c) ho n
    simp only [aucLoop, AucM.hookLoop, e]
    rw [ih _ _ (Nat.le_trans hle ho), ih _ _ (Nat.le_trans hle ho)]

theorem aucHook_eq (ho : AucM.owed w ≤ U128MAX) : aucHook c w = AucM.hook c w := by
  unfold aucHook AucM.hook
  rw [aucLoop_eq _ _ _ ho]

/-! ### rentals -/

/-- what is needed of a contract -/
def Sound (c : Cfg) (now : Block) (k : Contract) : Prop :=
  RentM.period k.duration ≤ c.rentMaxDur ∧ ∀ s, k.start = some s → s ≤ now

theorem hasEnded_eq {k : Contract} {now : Block} (hm : now ≤ U32MAX) : hasEnded k now = RentM.hasEnded k now := by
  unfold hasEnded RentM.hasEnded
  cases k.start with
  | none => rfl
  | some s =>
    dsimp only
    split
    · have : ¬ s ≤ now := by omega
      simp [this]
    · have : s ≤ now := by omega
      simp [this, sub32_eq this hm]

theorem completion_eq {k : Contract} {now : Block} (hk : Sound c now k) (hm : now ≤ U32MAX) :
    completion k now = RentM.completion k now := by
  unfold completion RentM.completion
  refine bind_eq fun s hs => ?_
  have hs := hk.2 s (Exec.expect_ok.1 hs)
  rw [if_pos hs, sub32_eq hs hm]
  rfl

theorem ext_now {f : Act} (hf : RentM.FrameOf w (f w).1) (h : f.ext w = .ok w') : w'.now = w.now := by
  unfold Act.ext at h
  rcases e : f w with ⟨w1, u⟩
  rw [e] at h hf
  cases u with
  | error _ => simp at h
  | ok _ => simp at h; subst h; unfold RentM.FrameOf at hf; have := congrArg World.now hf; exact this

theorem returnFee_frame (f : CancelFee) (d : AccountId) (w : World) : RentM.FrameOf w (RentM.returnFee c f d w).1 :=
  RentM.seq_frame (fun w => RentM.payAct_frame w ..) (fun w => RentM.chownOpt_frame w ..) w

theorem takeFees_now {r : AccountId} {k : Contract} (h : RentM.takeFees c w r k = .ok w') : w'.now = w.now := by
  unfold RentM.takeFees at h
  inv_ok at h
  obtain ⟨b1, _, b2, _, _, _, w1, h1, h2⟩ := h
  rw [ext_now (RentM.chownOpt_frame ..) h2, ext_now (RentM.chownOpt_frame ..) h1]
  rfl

theorem deposit_now {o : Option NFTId} (h : RentM.depositRenterNft c w a o = .ok w') : w'.now = w.now := by
  cases o with
  | none => simp [RentM.depositRenterNft, pure, Except.pure] at h; rw [← h]
  | some id =>
    simp only [RentM.depositRenterNft] at h
    inv_ok at h
    obtain ⟨x, _, _, _, h⟩ := h
    rw [← h]; rfl

theorem startContract_eq {n : NFTId} {k : Contract} (hk : Sound c w.now k) (hm : w.now + c.rentMaxDur ≤ U32MAX) (r : AccountId) :
    startContract c w n k r = RentM.startContract c w n k r := by
  refine bind_eq fun w1 h1 => ?_
  have e : w1.now = w.now := takeFees_now h1
  have e2 : add32 w1.now (RentM.period k.duration) = w1.now + RentM.period k.duration := add32_eq (by have := hk.1; omega)
  rw [e2]

theorem rentCall_eq (hk : ∀ n k, w.rent.contracts.get n = some k → Sound c w.now k)
    (hm : w.now + max c.rentAvail c.rentMaxDur ≤ U32MAX) (x : RentM.Call) :
    rentCall c w a x = RentM.call c w a x := by
  cases x with
  | create n d ac r f x y =>
    show createContract c w a n d ac r f x y = RentM.create c w a n d ac r f x y
    unfold createContract RentM.create
    iterate 15 refine bind_eq fun _ _ => ?_
    refine bind_eq fun b _ => ?_
    dsimp only
    refine bind_eq fun w1 h1 => ?_
    have e : w1.now = w.now := deposit_now (w := w.putBal b) h1
    rw [add32_eq (by omega)]
  | revoke n =>
    refine bind_eq fun k hk' => bind_eq fun _ _ => bind_eq fun _ _ => bind_eq fun _ _ => bind_eq fun w1 h1 => ?_
    have hs := hk n k (Exec.getOr_ok.1 hk')
    have e : w1.now = w.now := ext_now (returnFee_frame _ _ _) h1
    have e2 : ∀ f b d, penalty c k w1.now f b d w1 = RentM.penalty c k w1.now f b d w1 := by
      intro f b d
      unfold penalty RentM.penalty
      rw [completion_eq (c := c) (by rw [e]; exact hs) (by omega)]
      rfl
    rw [e2]
  | rent n b =>
    refine bind_eq fun k hk' => bind_eq fun _ _ => bind_eq fun _ _ => bind_eq fun _ _ => bind_eq fun _ _ => bind_eq fun _ _ => ?_
    exact startContract_eq (hk n k (Exec.getOr_ok.1 hk')) (by omega) _
  | acceptOffer n r =>
    refine bind_eq fun k hk' => bind_eq fun _ _ => bind_eq fun _ _ => bind_eq fun _ _ => ?_
    exact startContract_eq (hk n k (Exec.getOr_ok.1 hk')) (by omega) _
  | _ => rfl

theorem subOne_eq (hk : ∀ n k, w.rent.contracts.get n = some k → Sound c w.now k) (hm : w.now + c.rentMaxDur ≤ U32MAX)
    (n : NFTId) (t : Queue) : subOne c w n t = RentM.subOne c w n t := by
  have e : handleSub c w n = RentM.handleSub c w n := by
    unfold handleSub RentM.handleSub
    cases h : w.rent.contracts.get n with
    | none => rfl
    | some k =>
      dsimp only
      rw [hasEnded_eq (by omega), add32_eq (by have := (hk n k h).1; omega)]
      rfl
  unfold subOne RentM.subOne
  rw [e]
  rfl

theorem subLoop_eq : ∀ (f : Nat) (q : Queue) (k : Nat) (w : World),
    (∀ n k, w.rent.contracts.get n = some k → Sound c w.now k) → w.now + c.rentMaxDur ≤ U32MAX →
    subLoop c w q k f = RentM.subLoop c w q k f := by
  intro f
  induction f with
  | zero => intro q k w _ _; rfl
  | succ f ih =>
    intro q k w hk hm
    cases q with
    | nil => rfl
    | cons y t =>
      obtain ⟨n, b⟩ := y
      simp only [subLoop, RentM.subLoop, subOne_eq hk hm]
      rw [ih]
      · intro m x hx
        rw [RentM.subOne_now]
        exact hk m x (RentM.subOne_le _ _ _ _ _ hx)
      · rw [RentM.subOne_now]; exact hm

theorem rentHook_eq (hk : ∀ n k, w.rent.contracts.get n = some k → Sound c w.now k) (hm : w.now + c.rentMaxDur ≤ U32MAX) :
    rentHook c w = RentM.hook c w := by
  unfold rentHook RentM.hook
  have fn := RentM.finishLoop_now (c := c) w.rent.fixedQ w 0
  dsimp only
  rw [subLoop_eq]
  · intro m x hx
    rw [fn]
    exact hk m x (RentM.finishLoop_le _ _ _ _ _ hx)
  · rw [fn]; exact hm

/-! ### transmissions -/

theorem unique_spec {lim : Nat} : ∀ (l acc : List AccountId), acc.Nodup → acc.length + l.length ≤ lim →
    ∃ u, unique lim l acc = .ok u ∧ u.length ≤ acc.length + l.length ∧
      (u.length = acc.length + l.length ↔ (acc ++ l).Nodup) := by
  intro l
  induction l with
  | nil => intro acc ha _; exact ⟨acc, rfl, by simp, by simpa using ha⟩
  | cons x t ih =>
    intro acc ha hl
    simp only [List.length_cons] at hl
    simp only [unique]
    by_cases hx : x ∈ acc
    · obtain ⟨u, h1, h2, h3⟩ := ih acc ha (by omega)
      refine ⟨u, by simpa [hx] using h1, by simp; omega, ?_⟩
      simp only [List.length_cons]
      constructor
      · intro h; omega
      · intro h
        have := (List.nodup_append.1 h).2.2 x hx x (by simp)
        exact absurd rfl this
    · obtain ⟨u, h1, h2, h3⟩ := ih (acc ++ [x]) (by
        rw [List.nodup_append]; refine ⟨ha, by simp, ?_⟩
        intro y hy z hz e
        simp at hz; subst hz; subst e; exact hx hy) (by simp; omega)
      simp only [List.length_append, List.length_cons, List.length_nil, List.append_assoc, List.singleton_append] at h1 h2 h3
      refine ⟨u, ?_, by simp; omega, ?_⟩
      · have : acc.length < lim := by omega
        simpa [hx, this] using h1
      · simp only [List.length_cons]
        rw [← h3]; omega

theorem require_of {p : Prop} [Decidable p] {e : String} {f : Unit → Except Err World} (h : p) :
    (require p e >>= f) = f () := by
  unfold require; rw [if_pos h]; rfl

theorem require_iff {p q : Prop} [Decidable p] [Decidable q] {e : String} (h : p ↔ q) : require p e = require q e := by
  unfold require; simp only [h]

theorem checkConsents_eq {o : Option (List AccountId × Nat)} (h : ∀ x ∈ o, x.1.length ≤ c.trConsents)
    (f : Unit → Except Err World) :
    (checkConsents c o >>= f) = (do
      require (∀ x ∈ o, x.1.length ≤ c.trConsents) "ConsentListFull"
      require (∀ x ∈ o, x.1.Nodup) "DuplicatesInConsentList"
      require (∀ x ∈ o, 0 < x.2) "ThresholdTooLow"
      require (∀ x ∈ o, x.2 ≤ c.trConsents) "ThresholdTooHigh"
      require (∀ x ∈ o, x.2 ≤ x.1.length) "InvalidConsentList"
      f ()) := by
  rw [require_of h]
  cases o with
  | none => simp [checkConsents, require, bind, Except.bind, pure, Except.pure]
  | some x =>
    obtain ⟨l, t⟩ := x
    obtain ⟨u, h1, h2, h3⟩ := unique_spec (lim := c.trConsents) l [] (by simp) (by simpa using h)
    simp only [List.length_nil, Nat.zero_add, List.nil_append] at h2 h3
    simp only [checkConsents, h1]
    simp only [Option.mem_def, Option.some.injEq, forall_eq']
    simp only [bind_assoc]
    show (require (l.length = u.length) _ >>= _) = _
    rw [require_iff (p := l.length = u.length) (q := l.Nodup) (by rw [← h3]; omega)]

theorem checkEnd_eq {now : Block} {o : Option Block} (h : ∀ e ∈ o, e ≤ U32MAX) (f : Unit → Except Err World) :
    (checkEnd c now o >>= f) = (do
      require (∀ e ∈ o, now < e) "CannotSetTransmissionInThePast"
      require (∀ e ∈ o, e - now ≤ c.trMaxDur) "TransmissionIsInTooMuchTime"
      f ()) := by
  cases o with
  | none => simp [checkEnd, require, bind, Except.bind, pure, Except.pure]
  | some e =>
    simp only [checkEnd, Option.mem_def, Option.some.injEq, forall_eq', bind_assoc]
    refine bind_eq fun _ h1 => ?_
    have h1 := Exec.require_ok.1 h1
    rw [sub32_eq (by omega) (h e rfl)]

theorem trCall_eq (x : TrM.Call) (hs : ∀ n r p k, x = .set n r p k → (∀ e ∈ TrM.endBlock p, e ≤ U32MAX) ∧
      ∀ y ∈ TrM.consentData p, y.1.length ≤ c.trConsents)
    (hb : ∀ n b, x = .resetTimer n b → b ≤ U32MAX) :
    trCall c w a x = TrM.call c w a x := by
  cases x with
  | set n r p k =>
    show setProtocol c w a n r p k = TrM.set c w a n r p k
    unfold setProtocol TrM.set
    obtain ⟨h1, h2⟩ := hs n r p k rfl
    iterate 11 refine bind_eq fun _ _ => ?_
    rw [checkEnd_eq h1]
    iterate 2 refine bind_eq fun _ _ => ?_
    rw [checkConsents_eq h2]
  | resetTimer n b =>
    show resetTimer c w a n b = TrM.resetTimer c w a n b
    unfold resetTimer TrM.resetTimer
    iterate 5 refine bind_eq fun _ _ => ?_
    refine bind_eq fun _ h1 => ?_
    have h1 := Exec.require_ok.1 h1
    rw [sub32_eq (by omega) (hb n b rfl)]
  | _ => rfl

/-! ### TEE -/

/-- five bytes -/
def ByteP (p : Params) : Prop := p.p1 ≤ 255 ∧ p.p2 ≤ 255 ∧ p.p3 ≤ 255 ∧ p.p4 ≤ 255 ∧ p.p5 ≤ 255

/-- the weights and all reports consist of bytes -/
def ByteT (t : TeeSt) : Prop := ByteP t.weights ∧ ∀ k l, t.reports.get k = some l → ∀ r ∈ l, ByteP r.params

theorem highest_bytes {l : List Report} (h : ∀ r ∈ l, ByteP r.params) : ByteP (TeeM.highest l) := by
  unfold TeeM.highest
  suffices ∀ p, ByteP p → ByteP (l.foldl (fun p r =>
      { p1 := max p.p1 r.params.p1, p2 := max p.p2 r.params.p2, p3 := max p.p3 r.params.p3,
        p4 := max p.p4 r.params.p4, p5 := max p.p5 r.params.p5 }) p) from this _ ⟨by simp, by simp, by simp, by simp, by simp⟩
  induction l with
  | nil => intro p hp; exact hp
  | cons x t ih =>
    intro p hp
    refine ih (fun r hr => h r (by simp [hr])) _ ?_
    obtain ⟨a1, a2, a3, a4, a5⟩ := hp
    obtain ⟨b1, b2, b3, b4, b5⟩ := h x (by simp)
    exact ⟨by dsimp only; omega, by dsimp only; omega, by dsimp only; omega, by dsimp only; omega, by dsimp only; omega⟩

theorem weighted_eq {v k : Params} (hv : ByteP v) (hk : ByteP k) : weighted v k = TeeM.weighted v k := by
  obtain ⟨a1, a2, a3, a4, a5⟩ := hv
  obtain ⟨b1, b2, b3, b4, b5⟩ := hk
  have h1 := Nat.mul_le_mul a1 b1
  have h2 := Nat.mul_le_mul a2 b2
  have h3 := Nat.mul_le_mul a3 b3
  have h4 := Nat.mul_le_mul a4 b4
  have h5 := Nat.mul_le_mul a5 b5
  have m : ∀ x y, x * y ≤ 255 * 255 → satMul32 x y = x * y := fun x y h => Nat.min_eq_left (by unfold U32MAX; omega)
  unfold weighted TeeM.weighted
  rw [m _ _ h1, m _ _ h2, m _ _ h3, m _ _ h4, m _ _ h5]
  have e1 : add32 (v.p1 * k.p1) (v.p2 * k.p2) = _ := add32_eq (by unfold U32MAX; omega)
  rw [e1]
  have e2 : add32 (v.p1 * k.p1 + v.p2 * k.p2) (v.p3 * k.p3) = _ := add32_eq (by unfold U32MAX; omega)
  rw [e2]
  have e3 : add32 (v.p1 * k.p1 + v.p2 * k.p2 + v.p3 * k.p3) (v.p4 * k.p4) = _ := add32_eq (by unfold U32MAX; omega)
  rw [e3]
  exact add32_eq (by unfold U32MAX; omega)

theorem teeCall_eq (hb : ByteT w.tee) (hd : w.tee.data.card ≤ U32MAX) (hp : ∀ a s, w.tee.ledger.get a = some s → s.unbondedAt ≤ w.now)
    (hm : w.now ≤ U32MAX) (x : TeeM.Call) : teeCall c w a x = TeeM.call c w a x := by
  cases x with
  | withdraw =>
    refine bind_eq fun s hs => ?_
    rw [sub32_eq (hp a s (Exec.getOr_ok.1 hs)) hm]
  | claim e =>
    have es : share w.tee = TeeM.share w.tee := by
      unfold share TeeM.share; rw [Nat.mod_eq_of_lt]; unfold U32MAX at hd; omega
    have er : reward w.tee e a = TeeM.reward w.tee e a := by
      unfold reward TeeM.reward
      cases hr : w.tee.reports.get (e, a) with
      | none => exact es
      | some l =>
        dsimp only
        rw [es, weighted_eq (highest_bytes (hb.2 _ _ hr)) hb.1]
    show claim c w a e = TeeM.claim c w a e
    unfold claim TeeM.claim
    rw [er]
  | _ => rfl

/-! ### bridge -/

theorem brCall_eq (hm : w.now + c.proposalLife ≤ U32MAX) (x : BrM.Call) : brCall c w a x = BrM.call c w a x := by
  cases x with
  | vote k t =>
    refine bind_eq fun _ _ => bind_eq fun _ _ => ?_
    have : vote c w a (w.br.votes.get (k, t)) = BrM.vote c w a (w.br.votes.get (k, t)) := by
      cases w.br.votes.get (k, t) with
      | some p => rfl
      | none =>
        unfold vote BrM.vote
        rw [add32_eq hm]
    rw [this]
  | _ => rfl

end Mach

import Verif.Props.LooserSpec
import Verif.Proofs.Queues
import Verif.Proofs.Scope
import Verif.Proofs.Inv
/-
C119: with looser limits every accepted call is accepted with the same result.
-/
set_option maxRecDepth 10000
open Spec

/-- if the first succeeds so does the second, with the same result -/
structure Stays {α : Type} (m m' : Except Err α) : Prop where
  out : ∀ a, m = .ok a → m' = .ok a

namespace Stays
variable {α β : Type}

theorem refl (m : Except Err α) : Stays m m := ⟨fun _ h => h⟩

theorem bind {m m' : Except Err α} {f g : α → Except Err β} (h : Stays m m') (hf : ∀ a, Stays (f a) (g a)) :
    Stays (m >>= f) (m' >>= g) := by
  refine ⟨fun z hz => ?_⟩
  cases m with
  | error e => cases hz
  | ok a => rw [h.out a rfl]; exact (hf a).out z hz

theorem req {p q : Prop} [Decidable p] [Decidable q] {e e' : String} (hpq : p → q) : Stays (require p e) (require q e') := by
  refine ⟨fun z hz => ?_⟩
  by_cases hp : p
  · simp only [require, hp, hpq hp, if_true] at hz ⊢
  · simp only [require, hp, if_false] at hz; cases hz

theorem get {o o' : Option α} {e e' : String} (h : ∀ b, o = some b → o' = some b) : Stays (getOr o e) (getOr o' e') := by
  refine ⟨fun z hz => ?_⟩
  cases o with
  | none => cases hz
  | some a => cases hz; rw [h _ rfl]; rfl

end Stays

/-- a longer queue takes what a shorter one takes -/
theorem Queue.insert_sub {l l' : Nat} (h : l ≤ l') {q q' : Queue} {n b} (hi : Queue.insert l q n b = some q') :
    Queue.insert l' q n b = some q' := by
  unfold Queue.insert at *
  split at hi
  · rw [if_pos (by omega)]; exact hi
  · cases hi

theorem Queue.update_sub {l l' : Nat} (h : l ≤ l') {q : Queue} {n b} : Stays (q.update l n b) (q.update l' n b) := by
  refine ⟨fun z hz => ?_⟩
  unfold Queue.update at *
  by_cases hq : q.has n = true
  · rw [if_pos hq] at hz ⊢
    cases e : Queue.insert l (remove n q) n b with
    | none => rw [e] at hz; cases hz
    | some r => rw [e] at hz; rw [Queue.insert_sub h e]; exact hz
  · rw [if_neg hq] at hz ⊢
    exact hz

/-- the two configurations as tuples, with equal fields identified -/
macro "loose" h:ident c:ident d:ident : tactic =>
  `(tactic| (cases $h:ident; cases $c:ident; cases $d:ident; dsimp only at *; subst_vars))

set_option hygiene false in
/-- decompose a `do` block -/
macro "stays" : tactic =>
  `(tactic| repeat' first
    | with_reducible exact Stays.refl _
    | apply_assumption
    | refine Stays.bind (by with_reducible first | exact Stays.refl _ | apply_assumption) (fun _ => ?_)
    | refine Stays.bind (Stays.req (fun hreq => ?_)) (fun _ => ?_)
    | refine Stays.bind (Stays.get (fun _ h => Queue.insert_sub (by assumption) h)) (fun _ => ?_)
    | refine Stays.bind (Stays.refl _) (fun _ => ?_)
    | exact Stays.refl _)

set_option hygiene false in
/-- compare two limits -/
macro "within" : tactic =>
  `(tactic| first
    | assumption
    | omega
    | (intro x hx; have hh := hreq x hx; omega))

variable {c c' : Cfg} {w : World} {a : AccountId}

namespace NftM

theorem collCap_le (h : Looser c c') (k : Coll) : collCap c k ≤ collCap c' k := by
  have := h.collLimit
  unfold collCap
  cases k.limit with
  | none => exact this
  | some x => exact Nat.le_refl _

theorem pushToColl_stays (h : Looser c c') (w a id k) : Stays (pushToColl c w a id k) (pushToColl c' w a id k) := by
  cases k with
  | none => exact .refl _
  | some k =>
    have hk := collCap_le h
    unfold pushToColl
    refine Stays.bind (.refl _) fun col => ?_
    have := hk col
    have := h.collLimit
    stays <;> within

theorem createHelper_stays (h : Looser c c') (w a data roy coll sb) :
    Stays (createHelper c w a data roy coll sb) (createHelper c' w a data roy coll sb) := by
  have hp := pushToColl_stays h
  unfold createHelper
  rw [h.ed]
  refine Stays.bind (.refl _) fun b => ?_
  refine Stays.bind (hp ..) fun b => ?_
  stays

theorem call_stays (h : Looser c c') (x : Call) : Stays (call c w a x) (call c' w a x) := by
  have hh := createHelper_stays h
  have hl := h.collLimit
  cases x
  case createNft => exact hh ..
  case createSecret =>
    unfold call createSecret
    refine Stays.bind (.refl _) fun _ => Stays.bind (hh ..) fun _ => ?_
    loose h c c'; exact .refl _
  case createCapsule =>
    unfold call createCapsule
    refine Stays.bind (.refl _) fun _ => Stays.bind (hh ..) fun _ => ?_
    loose h c c'; exact .refl _
  case createColl =>
    unfold call createColl
    stays <;> within
  case limitColl =>
    unfold call limitColl
    stays <;> within
  case addToColl =>
    unfold call addToColl
    refine Stays.bind (.refl _) fun col => ?_
    have := collCap_le h col
    stays <;> within
  all_goals loose h c c'; exact .refl _

end NftM

namespace MktM

theorem call_stays (h : Looser c c') (x : Call) : Stays (call c w a x) (call c' w a x) := by
  loose h c c'; cases x <;> exact .refl _

end MktM

namespace AucM

theorem updateDeadline_stays (h : Looser c c') (q n b) : Stays (updateDeadline c q n b) (updateDeadline c' q n b) := by
  cases b with
  | none => exact .refl _
  | some e => exact Queue.update_sub h.aucLimit

theorem call_stays (h : Looser c c') (x : Call) : Stays (call c w a x) (call c' w a x) := by
  have h1 := h.maxDur
  have h2 := h.minDur
  have h3 := h.maxDelay
  have h4 := h.ending
  have h5 := h.aucLimit
  have h6 := updateDeadline_stays h
  cases x
  case create =>
    unfold call create
    stays <;> within
  case removeBid =>
    unfold call removeBidCall
    rw [h.ed, h.aucPot]
    stays <;> within
  case addBid =>
    unfold call addBid
    have e1 : insertBid c' = insertBid c := by loose h c c'; rfl
    have e2 : extend c' = extend c := by loose h c c'; rfl
    rw [h.ed, h.aucPot, e1, e2]
    stays
  all_goals loose h c c'; exact .refl _

end AucM

namespace RentM

theorem insertKind_stays (h : Looser c c') (r d n b) (r' : RentSt) (hr : insertKind c r d n b = some r') :
    insertKind c' r d n b = some r' := by
  cases d <;>
  · unfold insertKind at *
    simp only [Option.map_eq_some_iff] at hr ⊢
    obtain ⟨q, hq, rfl⟩ := hr
    exact ⟨q, Queue.insert_sub h.rentLimit hq, rfl⟩

theorem startContract_stays (h : Looser c c') (w n k r) : Stays (startContract c w n k r) (startContract c' w n k r) := by
  have e : takeFees c' = takeFees c := by loose h c c'; rfl
  unfold startContract
  rw [e]
  refine Stays.bind (.refl _) fun _ => Stays.bind (.get (insertKind_stays h _ _ _ _)) fun _ => ?_
  stays

theorem call_stays (h : Looser c c') (x : Call) : Stays (call c w a x) (call c' w a x) := by
  have h1 := h.rentLimit
  have h2 := h.rentAccounts
  have h3 := startContract_stays h
  cases x
  case create =>
    unfold call create
    have e : depositRenterNft c' = depositRenterNft c := by loose h c c'; rfl
    rw [h.ed, h.rentPot, h.rentMaxDur, h.rentAvail, e]
    stays <;> within
  case rent =>
    unfold call rent
    stays
  case acceptOffer =>
    unfold call acceptOffer
    stays
  case makeOffer =>
    unfold call makeOffer
    stays <;> within
  all_goals loose h c c'; exact .refl _

end RentM

namespace TrM

theorem enqueue_stays (h : Looser c c') (q n b) : Stays (enqueue c q n b) (enqueue c' q n b) := by
  have := h.trLimit
  cases b with
  | none => exact .refl _
  | some b =>
    unfold enqueue
    refine Stays.bind (.req fun _ => by omega) fun _ => .get fun _ hx => Queue.insert_sub this hx

theorem call_stays (h : Looser c c') (x : Call) : Stays (call c w a x) (call c' w a x) := by
  have h1 := h.trLimit
  have h2 := h.trMaxDur
  have h3 := h.trConsents
  have h4 := enqueue_stays h
  cases x
  case set =>
    unfold call set
    rw [h.ed]
    stays <;> within
  case resetTimer =>
    have h5 := fun q n b => Queue.update_sub (q := q) (n := n) (b := b) h1
    unfold call resetTimer
    stays <;> within
  case addConsent =>
    have h5 : ∀ w n p t l who, Stays (consentEffect c w n p t l who) (consentEffect c' w n p t l who) := by
      intro w n p t l who
      unfold consentEffect
      split
      · exact .refl _
      split
      · split
        · exact .refl _
        · exact Stays.bind (h4 ..) fun _ => .refl _
      · exact .refl _
    unfold call addConsent
    stays <;> within
  all_goals loose h c c'; exact .refl _

end TrM

namespace TeeM

theorem call_stays (h : Looser c c') (x : Call) : Stays (call c w a x) (call c' w a x) := by
  have h1 := h.teeList
  have h2 := h.bonding
  cases x
  case unregister =>
    show Stays (unregister ..) (unregister ..)
    unfold unregister
    split
    · unfold unregisterAssigned
      stays <;> within
    · exact .refl _
  case withdraw =>
    unfold call withdraw
    stays <;> within
  case submitReport =>
    have h3 : ∀ l r, Stays (addReport c l r) (addReport c' l r) := by
      intro l r
      unfold addReport
      split
      · exact .refl _
      · stays <;> within
    unfold call submitReport
    stays <;> within
  all_goals loose h c c'; exact .refl _

theorem root_stays (h : Looser c c') (x) : Stays (root c w x) (root c' w x) := by
  have h1 := h.teeList
  have h2 := h.clusterSize
  cases x
  case assign =>
    unfold root assign
    stays <;> within
  case registerServer =>
    unfold root registerServer
    stays <;> within
  all_goals exact .refl _

end TeeM

namespace BrM

theorem call_stays (h : Looser c c') (x : Call) : Stays (call c w a x) (call c' w a x) := by
  have h1 := h.relayerLimit
  cases x
  case vote =>
    have h2 : ∀ w a p, Stays (vote c w a p) (vote c' w a p) := by
      intro w a p
      cases p <;>
      · unfold vote
        rw [h.proposalLife]
        stays <;> within
    have h3 : payout c' = payout c := by loose h c c'; rfl
    unfold call voteFor
    rw [h3]
    stays
  all_goals loose h c c'; exact .refl _

theorem ext_stays (h : Looser c c') (x) : Stays (ext c w x) (ext c' w x) := by
  loose h c c'; cases x <;> exact .refl _

end BrM

/-- root calls -/
theorem rootCall_stays (h : Looser c c') (x) : Stays (rootCall c w x) (rootCall c' w x) := by
  cases x
  case tee => exact TeeM.root_stays h _
  all_goals exact .refl _

/-- signed calls -/
theorem signedCall_stays (h : Looser c c') (x) : Stays (signedCall c w a x) (signedCall c' w a x) := by
  cases x
  case nft => exact NftM.call_stays h _
  case mkt => exact MktM.call_stays h _
  case auc => exact AucM.call_stays h _
  case rent => exact RentM.call_stays h _
  case tr => exact TrM.call_stays h _
  case tee => exact TeeM.call_stays h _
  case br => exact BrM.call_stays h _
  case bal => unfold signedCall; rw [h.ed]; exact .refl _
  all_goals exact .refl _

/-- all calls except mandates -/
theorem dispatch_stays (h : Looser c c') {x : Call} (hx : NoMandate x) (o : Origin) :
    Stays (dispatch c x o w) (dispatch c' x o w) := by
  cases o with
  | signed a => rw [dispatch_signed, dispatch_signed]; exact signedCall_stays h x
  | root =>
    cases x
    case root => exact rootCall_stays h _
    case ext => exact BrM.ext_stays h _
    case mandate => exact hx.elim
    all_goals exact .refl _
  | ext =>
    cases x
    case ext => exact BrM.ext_stays h _
    case mandate => exact hx.elim
    all_goals exact .refl _

/-- Whatever a call does, some call does with looser limits: the same call, or, for a mandate whose call was refused, a
mandate of a call that is refused for its origin. -/
theorem dispatch_loose (h : Looser c c') (x : Call) (o : Origin) {w' : World} (hw : dispatch c x o w = .ok w') :
    ∃ y, dispatch c' y o w = .ok w' := by
  have man : ∀ (x : Call) (w' : World), (∀ w', dispatch c x .root w = .ok w' → ∃ y, dispatch c' y .root w = .ok w') →
      mandateResult w (dispatch c x .root w) = .ok w' → ∃ y, mandateResult w (dispatch c' y .root w) = .ok w' := by
    intro x w' ih hw
    cases e : dispatch c x .root w with
    | ok w1 =>
      obtain ⟨y, hy⟩ := ih w1 e
      refine ⟨y, ?_⟩
      rw [e] at hw
      rw [hy]
      exact hw
    | error r =>
      rw [e] at hw
      cases r with
      | panic s => cases hw
      | e s => exact ⟨.nft (.createColl [] none), hw⟩
  have key : ∀ (x : Call) (w' : World), dispatch c x .root w = .ok w' → ∃ y, dispatch c' y .root w = .ok w' := by
    intro x
    induction x with
    | mandate x ih =>
      intro w' hw
      obtain ⟨y, hy⟩ := man x w' ih hw
      exact ⟨.mandate y, hy⟩
    | _ => intro w' hw; exact ⟨_, (dispatch_stays h (by trivial) _).out _ hw⟩
  cases o with
  | signed a =>
    rw [dispatch_signed] at hw
    exact ⟨x, by rw [dispatch_signed]; exact (signedCall_stays h x).out _ hw⟩
  | root => exact key x w' hw
  | ext =>
    cases x
    case mandate x =>
      obtain ⟨y, hy⟩ := man x w' (key x) hw
      exact ⟨.mandate y, hy⟩
    all_goals exact ⟨_, (dispatch_stays h (by trivial) _).out _ hw⟩

/-! The hooks do exactly the same. -/

theorem AucM.hook_loose (h : Looser c c') : AucM.hook c' w = AucM.hook c w := by
  have e : ∀ (q : Queue) (w : World) (k : Nat), AucM.hookLoop c' w q k = AucM.hookLoop c w q k := by
    have e1 : AucM.settleOne c' = AucM.settleOne c := by loose h c c'; rfl
    intro q
    induction q with
    | nil => intro w k; rfl
    | cons x t ih =>
      intro w k
      simp only [AucM.hookLoop, e1, h.aucActions, ih]
  unfold AucM.hook
  rw [e]

theorem TrM.hook_loose (h : Looser c c') : TrM.hook c' w = TrM.hook c w := by
  have e : ∀ (q : Queue) (w : World) (k : Nat), TrM.hookLoop c' w q k = TrM.hookLoop c w q k := by
    intro q
    induction q with
    | nil => intro w k; rfl
    | cons x t ih =>
      intro w k
      simp only [TrM.hookLoop, h.trActions, ih]
  unfold TrM.hook
  rw [e]

theorem TeeM.hook_loose (h : Looser c c') : TeeM.hook c' w = TeeM.hook c w := by
  unfold TeeM.hook
  rw [h.history]

theorem RentM.hook_loose (h : Looser c c') (hl : w.rent.subQ.length ≤ c.rentLimit) : RentM.hook c' w = RentM.hook c w := by
  have e1 : RentM.handleFinished c' = RentM.handleFinished c := by loose h c c'; rfl
  have e2 : RentM.handleSub c' = RentM.handleSub c := by loose h c c'; rfl
  have e3 : ∀ (q : Queue) (w : World) (k : Nat), RentM.finishLoop c' w q k = RentM.finishLoop c w q k := by
    intro q
    induction q with
    | nil => intro w k; rfl
    | cons x t ih =>
      intro w k
      simp only [RentM.finishLoop, e1, h.rentActions, ih]
  have e4 : ∀ (f : Nat) (w : World) (q : Queue) (k : Nat), q.length ≤ c.rentLimit →
      RentM.subLoop c' w q k f = RentM.subLoop c w q k f := by
    intro f
    induction f with
    | zero => intro w q k _; rfl
    | succ f ih =>
      intro w q k hq
      cases q with
      | nil => rfl
      | cons x t =>
        obtain ⟨n, b⟩ := x
        have hlt : t.length < c.rentLimit := hq
        have hlt' := Nat.lt_of_lt_of_le hlt h.rentLimit
        have e5 : RentM.subOne c' w n t = RentM.subOne c w n t ∧ (RentM.subOne c w n t).2.length ≤ c.rentLimit := by
          unfold RentM.subOne
          rw [e1, e2]
          split
          · simp only [Queue.insert, hlt, hlt', if_true, Option.getD_some, true_and, Queue.length_ins]
            exact hlt
          · exact ⟨rfl, Nat.le_of_lt hlt⟩
        simp only [RentM.subLoop, e5.1, h.rentActions, ih _ _ _ e5.2]
  unfold RentM.hook
  simp only [e3, h.rentActions]
  rw [e4 _ _ _ _ hl]

theorem Spec.Looser.ok (h : Looser c c') : c'.Ok ↔ c.Ok := by
  constructor
  · rintro ⟨h1, h2, h3, h4, h5, h6, h7, h8⟩
    rw [h.ed] at h1
    rw [h.bidLimit] at h2
    rw [h.aucPot] at h3 h4 h5
    rw [h.rentPot] at h3 h6 h7
    rw [h.teePot] at h4 h6 h8
    rw [h.rewPot] at h5 h7 h8
    exact ⟨h1, h2, h3, h4, h5, h6, h7, h8⟩
  · rintro ⟨h1, h2, h3, h4, h5, h6, h7, h8⟩
    rw [← h.ed] at h1
    rw [← h.bidLimit] at h2
    rw [← h.aucPot] at h3 h4 h5
    rw [← h.rentPot] at h3 h6 h7
    rw [← h.teePot] at h4 h6 h8
    rw [← h.rewPot] at h5 h7 h8
    exact ⟨h1, h2, h3, h4, h5, h6, h7, h8⟩

theorem Spec.Looser.pot (h : Looser c c') (a : AccountId) : c'.pot a ↔ c.pot a := by
  unfold Cfg.pot
  rw [h.aucPot, h.rentPot, h.teePot, h.rewPot]

theorem Spec.Looser.op (h : Looser c c') {o : Op} (ho : o.Ok c) : o.Ok c' := by
  cases o with
  | call o x => cases o with
    | signed a => exact fun hp => ho ((h.pot a).1 hp)
    | _ => trivial
  | txFee p => exact fun hp => ho ((h.pot p).1 hp)
  | lock a => exact fun hp => ho ((h.pot a).1 hp)
  | _ => trivial

theorem Spec.Looser.genesis (h : Looser c c') (hg : Genesis c w) : Genesis c' w := by
  obtain ⟨⟨h1, h2, h3, h4, h5⟩, h6⟩ := hg
  refine ⟨⟨h1, fun a ha => h2 a ((h.pot a).1 ha), ?_, h4, h5⟩, ‹_›, ‹_›, ‹_›, ‹_›, ‹_›, ‹_›, ‹_›, ‹_›, ‹_›, ‹_›⟩
  rw [h.ed]; exact h3

/-- what is not a call does the same -/
theorem step_same (h : Looser c c') (hl : w.rent.subQ.length ≤ c.rentLimit) (o : Op) (ho : ∀ u x, o ≠ .call u x) :
    step c' w o = step c w o := by
  cases o with
  | call u x => exact absurd rfl (ho u x)
  | hookAuc => exact AucM.hook_loose h
  | hookRent => exact RentM.hook_loose h hl
  | hookTr => exact TrM.hook_loose h
  | hookTee => exact TeeM.hook_loose h
  | tick => rfl
  | era x => rfl
  | txFee p f t x =>
    have : RewM.txFee c' = RewM.txFee c := by clear ho hl; loose h c c'; rfl
    simp only [step, this]
  | eraPayout =>
    have : RewM.eraPayout c' = RewM.eraPayout c := by clear ho hl; loose h c c'; rfl
    simp only [step, this]
  | mint a v => simp only [step, h.ed]
  | lock a v => rfl

/-- whatever happens can also happen with looser limits -/
theorem step_loose (h : Looser c c') (hl : w.rent.subQ.length ≤ c.rentLimit) (o : Op) (ho : o.Ok c) :
    step c w o = w ∨ ∃ o', o'.Ok c' ∧ step c' w o' = step c w o := by
  by_cases hn : ∀ u x, o ≠ .call u x
  · exact .inr ⟨o, h.op ho, step_same h hl o hn⟩
  cases o with
  | call o x =>
    cases e : dispatch c x o w with
    | error r => left; simp only [step, e, orSame]
    | ok w' =>
      right
      obtain ⟨y, hy⟩ := dispatch_loose h x o e
      refine ⟨.call o y, ?_, ?_⟩
      · cases o with
        | signed a => exact fun hp => ho ((h.pot a).1 hp)
        | _ => trivial
      · simp only [step, e, hy]
  | _ => exact absurd (by intros; simp) hn

/-- the queue of subscriptions fits -/
theorem Reach.subQ_len (hc : c.Ok) (hr : Reach c w) : w.rent.subQ.length ≤ c.rentLimit := by
  have := (hr.inv hc).rent.q.len
  omega

/-- whatever is reachable is reachable with looser limits -/
theorem Reach.loose (h : Looser c c') (hc : c.Ok) (hr : Reach c w) : Reach c' w := by
  induction hr with
  | init hg => exact .init (h.genesis hg)
  | @step w o hr ho ih =>
    rcases step_loose h (hr.subQ_len hc) o ho with e | ⟨o', ho', e⟩
    · rw [e]; exact ih
    · rw [← e]; exact .step o' ih ho'

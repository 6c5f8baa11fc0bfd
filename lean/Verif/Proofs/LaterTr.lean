import Verif.Proofs.LaterRent
/-
Moving in time commutes with the calls and the hook of the transmission pallet.
-/
open Spec Sym

namespace TrM
variable (k : Block) (c : Cfg) (w : World) (who : AccountId)

theorem later_kind (p : Protocol) : kind (Later.protocol k p) = kind p := by cases p <;> rfl
theorem later_endBlock (p : Protocol) : endBlock (Later.protocol k p) = (endBlock p).map (· + k) := by cases p <;> rfl
theorem later_blockToQueue (p : Protocol) : blockToQueue (Later.protocol k p) = (blockToQueue p).map (· + k) := by cases p <;> rfl
theorem later_canReset (p : Protocol) : canReset (Later.protocol k p) = canReset p := by cases p <;> rfl
theorem later_consentData (p : Protocol) : consentData (Later.protocol k p) = consentData p := by cases p <;> rfl
theorem later_untilBlock (x : Cancellation) : untilBlock (Later.cancellation k x) = (untilBlock x).map (· + k) := by cases x <;> rfl

theorem later_cancellable (now : Block) (x : Cancellation) :
    cancellable (now + k) (Later.cancellation k x) = cancellable now x := by
  cases x <;> simp [cancellable, Later.cancellation]

theorem later_all (o : Option Block) (P Q : Block → Prop) (h : ∀ b, Q (b + k) = P b) :
    (∀ b ∈ o.map (· + k), Q b) = (∀ b ∈ o, P b) := by
  cases o <;> simp [h]

theorem later_get (n : NFTId) : (Later.world k w).tr.trans.get n = (w.tr.trans.get n).map (Later.trans k) :=
  FMap.mapv_get ..

theorem later_transmit (n : NFTId) : transmit (Later.world k w) n = Except.map (Later.world k) (transmit w n) := by
  simp only [transmit, later_get, getOr_map', bind_map', map_bind', map_pure']
  ren [Later.world, Later.trSt, World.putNft, Later.trans]

theorem later_enqueue (q : Queue) (n : NFTId) (o : Option Block) :
    enqueue c (Later.queue k q) n (o.map (· + k)) = Except.map (Later.queue k) (enqueue c q n o) := by
  cases o with
  | none => rfl
  | some b => simp only [enqueue, Option.map_some, Later.queue_length, Later.queue_insert, getOr_map', map_bind']

theorem later_cleanup (t : TrSt) (n : NFTId) (x : ProtocolKind) : cleanup (Later.trSt k t) n x = Later.trSt k (cleanup t n x) := by
  cases x <;> simp [cleanup, Later.trSt]

theorem later_ev (e : Ev) (h : Later.ev k e = e) : (Later.world k w).ev e = Later.world k (w.ev e) := by
  simp [Later.world, World.ev, h]

theorem later_consentEffect (n : NFTId) (p : Protocol) (t : Nat) (l : List AccountId) :
    consentEffect c (Later.world k w) n (Later.protocol k p) t l who =
      Except.map (Later.world k) (consentEffect c w n p t l who) := by
  have he : ({ Later.world k w with tr := { (Later.world k w).tr with consents := (Later.world k w).tr.consents.erase n } } : World) =
      Later.world k { w with tr := { w.tr with consents := w.tr.consents.erase n } } := rfl
  have hi : ({ Later.world k w with tr := { (Later.world k w).tr with consents := (Later.world k w).tr.consents.insert n l } } : World) =
      Later.world k { w with tr := { w.tr with consents := w.tr.consents.insert n l } } := rfl
  have hq : ∀ q, ({ Later.world k w with tr := { (Later.world k w).tr with
        queue := Later.queue k q, consents := (Later.world k w).tr.consents.erase n } } : World) =
      Later.world k { w with tr := { w.tr with queue := q, consents := w.tr.consents.erase n } } := fun _ => rfl
  have hv : ∀ w : World, (Later.world k w).ev (.consentAdded n who) = Later.world k (w.ev (.consentAdded n who)) := fun w =>
    later_ev k w _ rfl
  have hv' : ∀ w : World, (Later.world k w).ev (.transmitted n) = Later.world k (w.ev (.transmitted n)) := fun w =>
    later_ev k w _ rfl
  have hqq : (Later.world k w).tr.queue = Later.queue k w.tr.queue := rfl
  have hd : ∀ e : Block, (e + k ≤ (Later.world k w).now) = (e ≤ w.now) := fun e => propext (Nat.add_le_add_iff_right ..)
  simp only [consentEffect, later_endBlock]
  by_cases hl : l.length < t
  · rw [if_pos hl, if_pos hl, hi, hv]; rfl
  · rw [if_neg hl, if_neg hl]
    cases endBlock p with
    | none => simp only [Option.map_none, he, later_transmit, bind_map', map_bind', map_pure', hv, hv']
    | some e =>
      simp only [Option.map_some, hd]
      by_cases h : e ≤ w.now
      · simp only [if_pos h, he, later_transmit, bind_map', map_bind', map_pure', hv, hv']
      · have h1 : enqueue c (Later.world k w).tr.queue n (some (e + k)) = _ := later_enqueue k c w.tr.queue n (some e)
        simp only [if_neg h, h1, bind_map', map_bind', map_pure', hq, hv]

theorem later_call (x : Call) : call c (Later.world k w) who (Later.trCall k x) = Except.map (Later.world k) (call c w who x) := by
  have hn : ∀ n, (Later.world k w).nfts.get n = w.nfts.get n := fun n => rfl
  have hp : ∀ t, (Later.trans k t).protocol = Later.protocol k t.protocol := fun _ => rfl
  have hlt : ∀ b : Block, ((Later.world k w).now < b + k) = (w.now < b) := fun b => propext (Nat.add_lt_add_iff_right ..)
  have hsub : ∀ b : Block, b + k - (Later.world k w).now = b - w.now := fun b => Nat.add_sub_add_right ..
  have hqq : (Later.world k w).tr.queue = Later.queue k w.tr.queue := rfl
  cases x with
  | set n a p x =>
    have h1 := later_all k (untilBlock x) (w.now < ·) ((Later.world k w).now < ·) hlt
    have h2 := later_all k (endBlock p) (w.now < ·) ((Later.world k w).now < ·) hlt
    have h3 := later_all k (endBlock p) (fun e => e - w.now ≤ c.trMaxDur) (fun e => e - (Later.world k w).now ≤ c.trMaxDur)
      (fun b => by rw [hsub])
    have hb : (Later.world k w).bal = w.bal := rfl
    have hf : ∀ t, protocolFee (Later.world k w).tr t = protocolFee w.tr t := fun t => by cases t <;> rfl
    simp only [call, Later.trCall, set, hn, hb, hf, hqq, later_endBlock, later_untilBlock, later_consentData, later_kind,
      later_blockToQueue, later_enqueue, h1, h2, h3, bind_map', map_bind', map_pure']
    ren [Later.world, Later.trSt, Later.trans, World.putNft, World.ev, Later.ev, World.putBal]
  | remove n =>
    have hc : ∀ t : Transmission, cancellable (Later.world k w).now (Later.trans k t).cancellation = cancellable w.now t.cancellation :=
      fun t => later_cancellable ..
    simp only [call, Later.trCall, remove, hn, later_get, hp, hc, later_kind, getOr_map', bind_map', map_bind', map_pure']
    simp [-bind_pure_comp, Later.world, World.putNft, later_cleanup]
    ren [Later.trSt, Later.trans]
  | resetTimer n b =>
    simp only [call, Later.trCall, resetTimer, hn, later_get, hp, hlt, hsub, hqq, later_canReset, Later.queue_update, getOr_map',
      bind_map', map_bind', map_pure']
    ren [Later.world, Later.trSt, Later.trans, Later.protocol]
  | addConsent n =>
    have hf : ((Later.world k w).tr.queue.find n = none) = (w.tr.queue.find n = none) := by
      rw [hqq, Later.queue_find, Option.map_eq_none_iff]
    have hcs : (Later.world k w).tr.consents = w.tr.consents := rfl
    simp only [call, Later.trCall, addConsent, hn, later_get, hp, hf, hcs, later_kind, later_consentData, later_consentEffect, getOr_map',
      bind_map', map_bind']

theorem later_setFee (x : ProtocolKind) (v : Balance) : setFee (Later.world k w) x v = Later.world k (setFee w x v) := by
  cases x <;> rfl

theorem later_hookOne (n : NFTId) : hookOne (Later.world k w) n = (Later.world k (hookOne w n).1, (hookOne w n).2) := by
  simp only [hookOne, later_transmit]
  cases transmit w n
  · exact Prod.ext (later_ev k w _ rfl) rfl
  · exact Prod.ext (later_ev k _ _ rfl) rfl

theorem later_hookLoop (q : Queue) (m : Nat) :
    hookLoop c (Later.world k w) (Later.queue k q) m =
      (Later.world k (hookLoop c w q m).1, Later.queue k (hookLoop c w q m).2.1, (hookLoop c w q m).2.2) := by
  induction q generalizing w m with
  | nil => rfl
  | cons x t ih =>
    simp only [Later.queue_cons, hookLoop, later_hookOne, ih, RentM.later_due]
    split
    · generalize (if (hookOne w x.1).2 = true then m + 1 else m) = m'
      split <;> rfl
    · rfl

theorem later_hook : hook c (Later.world k w) = Later.world k (hook c w) := by
  simp only [hook, show (Later.world k w).tr.queue = Later.queue k w.tr.queue from rfl, later_hookLoop]
  split <;> rfl

end TrM

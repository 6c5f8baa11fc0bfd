import Verif.Proofs.SymRent
/-
Renaming commutes with the calls and the hook of the transmission pallet.
-/
open Spec Sym
namespace TrM
variable (ρ : Ren) (c : Cfg) (w : World) (who : AccountId)

theorem ren_kind (p : Protocol) : kind (ρ.protocol p) = kind p := by cases p <;> rfl
theorem ren_endBlock (p : Protocol) : endBlock (ρ.protocol p) = endBlock p := by cases p <;> rfl
theorem ren_blockToQueue (p : Protocol) : blockToQueue (ρ.protocol p) = blockToQueue p := by cases p <;> rfl
theorem ren_canReset (p : Protocol) : canReset (ρ.protocol p) = canReset p := by cases p <;> rfl

theorem ren_consentData (p : Protocol) :
    consentData (ρ.protocol p) = (consentData p).map fun x => (x.1.map ρ.acc, x.2) := by
  cases p <;> rfl

theorem ren_forall (p : Protocol) (P Q : List AccountId × Nat → Prop) (h : ∀ x, Q (x.1.map ρ.acc, x.2) = P x) :
    (∀ x ∈ consentData (ρ.protocol p), Q x) = (∀ x ∈ consentData p, P x) := by
  rw [ren_consentData]
  cases consentData p <;> simp [h]

theorem ren_transmit (n : NFTId) : transmit (ρ.world w) n = Except.map ρ.world (transmit w n) := by
  ren [transmit, Ren.world, Ren.trSt, World.putNft, Ren.nft, Ren.trans]

theorem ren_enqueue (q : Queue) (n : NFTId) (o : Option Block) : enqueue (ρ.cfg c) q n o = enqueue c q n o := by
  cases o <;> rfl

theorem ren_fee (t : TrSt) (k : ProtocolKind) : protocolFee (ρ.trSt t) k = protocolFee t k := by cases k <;> rfl

theorem ren_cleanup (t : TrSt) (n : NFTId) (k : ProtocolKind) : cleanup (ρ.trSt t) n k = ρ.trSt (cleanup t n k) := by
  cases k <;> simp [cleanup, Ren.trSt]

theorem ren_consentEffect (n : NFTId) (p : Protocol) (t : Nat) (l : List AccountId) :
    consentEffect (ρ.cfg c) (ρ.world w) n (ρ.protocol p) t (l.map ρ.acc) (ρ.acc who) =
      Except.map ρ.world (consentEffect c w n p t l who) := by
  have he : ({ ρ.world w with tr := { (ρ.world w).tr with consents := (ρ.world w).tr.consents.erase n } } : World) =
      ρ.world { w with tr := { w.tr with consents := w.tr.consents.erase n } } := by
    simp [Ren.world, Ren.trSt]
  have hi : ({ ρ.world w with tr := { (ρ.world w).tr with consents := (ρ.world w).tr.consents.insert n (l.map ρ.acc) } } : World) =
      ρ.world { w with tr := { w.tr with consents := w.tr.consents.insert n l } } := by
    simp [Ren.world, Ren.trSt]
  have hq : ∀ q, ({ ρ.world w with tr := { (ρ.world w).tr with queue := q, consents := (ρ.world w).tr.consents.erase n } } : World) =
      ρ.world { w with tr := { w.tr with queue := q, consents := w.tr.consents.erase n } } := by
    intro q
    simp [Ren.world, Ren.trSt]
  have hv : (Ev.consentAdded n (ρ.acc who)) = ρ.ev (.consentAdded n who) := rfl
  have hv' : (Ev.transmitted n) = ρ.ev (.transmitted n) := rfl
  have hnow : (ρ.world w).now = w.now := rfl
  have hqq : (ρ.world w).tr.queue = w.tr.queue := rfl
  simp only [consentEffect, List.length_map, ren_endBlock, he, hi, hq, ren_transmit, bind_map']
  simp only [hnow, hqq, ren_enqueue]
  split
  · rw [hv, Ren.world_ev]; rfl
  · split
    · split
      · simp only [map_bind', map_pure', ← Ren.world_ev]; rfl
      · simp only [map_bind', map_pure', ← Ren.world_ev]; rfl
    · simp only [map_bind', map_pure', ← Ren.world_ev]; rfl

theorem ren_call (x : Call) : call (ρ.cfg c) (ρ.world w) (ρ.acc who) (ρ.trCall x) = Except.map ρ.world (call c w who x) := by
  have hn : ∀ n, (ρ.world w).nfts.get n = (w.nfts.get n).map ρ.nft := fun n => FMap.mapv_get ..
  have ht : ∀ n, (ρ.world w).tr.trans.get n = (w.tr.trans.get n).map ρ.trans := fun n => FMap.mapv_get ..
  have ho : ∀ n, (ρ.world w).tr.consents.get n = (w.tr.consents.get n).map (List.map ρ.acc) := fun n => FMap.mapv_get ..
  have hp : ∀ t, (ρ.trans t).protocol = ρ.protocol t.protocol := fun _ => rfl
  cases x with
  | set n a p k =>
    have hb : (ρ.world w).bal = ρ.bal w.bal := rfl
    have h1 := ren_forall ρ p (fun x => x.1.length ≤ c.trConsents) (fun x => x.1.length ≤ c.trConsents) (by simp)
    have h2 := ren_forall ρ p (fun x => x.1.Nodup) (fun x => x.1.Nodup) (by simp [List.nodup_map_iff ρ.acc_injective])
    have h3 := ren_forall ρ p (fun x => 0 < x.2) (fun x => 0 < x.2) (by simp)
    have h4 := ren_forall ρ p (fun x => x.2 ≤ c.trConsents) (fun x => x.2 ≤ c.trConsents) (by simp)
    have h5 := ren_forall ρ p (fun x => x.2 ≤ x.1.length) (fun x => x.2 ≤ x.1.length) (by simp)
    have ht : (ρ.world w).tr = ρ.trSt w.tr := rfl
    have hc : (ρ.cfg c).trConsents = c.trConsents := rfl
    simp only [call, Ren.trCall, set, hn, getOr_map', bind_map', map_bind', ren_endBlock, hb, ht, ren_fee, hc, h1, h2, h3, h4, h5,
      Ren.bal_payFee, ren_kind, ren_blockToQueue, ren_enqueue, show (ρ.cfg c).ed = c.ed from rfl]
    ren [Ren.world, Ren.trSt, Ren.trans, World.putNft, World.ev, Ren.ev, Ren.nft, Ren.cfg, World.putBal]
  | remove n =>
    have hr : (ρ.world w).tr = ρ.trSt w.tr := rfl
    simp [-bind_pure_comp, call, Ren.trCall, remove, hn, ht, hp, ren_kind]
    simp [-bind_pure_comp, Ren.world, Ren.nft, World.putNft, ren_cleanup]
    ren [Ren.trSt, Ren.trans]
  | resetTimer n b =>
    simp [-bind_pure_comp, call, Ren.trCall, resetTimer, hn, ht, hp, ren_canReset]
    ren [Ren.world, Ren.nft, Ren.trSt, Ren.trans, Ren.cfg, Ren.protocol]
  | addConsent n =>
    have hl : ((w.tr.consents.get n).map (List.map ρ.acc)).getD [] = ((w.tr.consents.get n).getD []).map ρ.acc := by
      cases w.tr.consents.get n <;> rfl
    have ha : ∀ l : List AccountId, l.map ρ.acc ++ [ρ.acc who] = (l ++ [who]).map ρ.acc := by simp
    simp only [call, Ren.trCall, addConsent, hn, ht, ho, hp, ren_kind, ren_consentData, getOr_map', bind_map', map_bind', hl, ha,
      ren_consentEffect]
    ren [Ren.nft, Ren.cfg, show (ρ.world w).tr.queue = w.tr.queue from rfl]

theorem ren_setFee (k : ProtocolKind) (v : Balance) : setFee (ρ.world w) k v = ρ.world (setFee w k v) := by
  cases k <;> rfl

theorem ren_hookOne (n : NFTId) : hookOne (ρ.world w) n = (ρ.world (hookOne w n).1, (hookOne w n).2) := by
  simp only [hookOne, ren_transmit]
  cases transmit w n <;> rfl

theorem ren_hookLoop (q : Queue) (k : Nat) :
    hookLoop (ρ.cfg c) (ρ.world w) q k = (ρ.world (hookLoop c w q k).1, (hookLoop c w q k).2) := by
  induction q generalizing w k with
  | nil => rfl
  | cons x t ih =>
    simp only [hookLoop, ren_hookOne, ih]
    rw [show (ρ.world w).now = w.now from rfl, show (ρ.cfg c).trActions = c.trActions from rfl]
    split
    · generalize (if (hookOne w x.1).2 = true then k + 1 else k) = k'
      split <;> rfl
    · rfl

theorem ren_hook : hook (ρ.cfg c) (ρ.world w) = ρ.world (hook c w) := by
  simp only [hook, show (ρ.world w).tr.queue = w.tr.queue from rfl, ren_hookLoop]
  split <;> rfl

end TrM

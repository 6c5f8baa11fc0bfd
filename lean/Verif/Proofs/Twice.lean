import Verif.Props.TwiceSpec
import Verif.Proofs.Undo
import Verif.Proofs.RentStep
import Verif.Proofs.Registry
/-
Lemmas for C118: making the same call twice.
-/
variable {c : Cfg} {w w' w'' : World} {a : AccountId}
open Spec

theorem FMap.del_del {K V : Type} [DecidableEq K] (k : K) (l : List (K × V)) : FMap.del k (FMap.del k l) = FMap.del k l := by
  induction l with
  | nil => rfl
  | cons x t ih => obtain ⟨k', v⟩ := x; by_cases h : k' = k <;> simp [FMap.del, h, ih]

@[simp] theorem FMap.insert_insert_self {K V : Type} [DecidableEq K] (m : FMap K V) (k : K) (v u : V) :
    (m.insert k u).insert k v = m.insert k v := by
  simp [FMap.insert, FMap.del, FMap.del_del]

@[simp] theorem FMap.erase_erase_self {K V : Type} [DecidableEq K] (m : FMap K V) (k : K) :
    (m.erase k).erase k = m.erase k := by
  simp [FMap.erase, FMap.del_del]

@[simp] theorem FMap.set_set_self {K V : Type} [DecidableEq K] (m : FMap K V) (k : K) (o : Option V) :
    (m.set k o).set k o = m.set k o := by
  cases o <;> simp [FMap.set]

/-- open both calls -/
macro "open_twice" h1:ident h2:ident : tactic =>
  `(tactic| (inv_ok at $h1; inv_ok at $h2
             casesm* _ ∧ _, ∃ _, _
             subst_vars))

namespace NftM

theorem pushShard_twice {cur l l'} {s : ClusterId × AccountId} (h1 : pushShard c cur s = .ok (some l))
    (h2 : pushShard c (some l) s = .ok l') : False := by
  have hs : s ∈ l := by
    unfold pushShard at h1
    split at h1 <;> inv_ok at h1 <;> casesm* _ ∧ _, ∃ _, _
    · rename_i e; split at e <;> simp at e; simp [← e]
    · rename_i e; split at e <;> simp at e; simp [← e]
  unfold pushShard at h2
  inv_ok at h2
  obtain ⟨_, _, _, _, h, _⟩ := h2
  exact h hs

theorem addSecretShard_twice {n} (h1 : addSecretShard c w a n = .ok w') (h2 : addSecretShard c w' a n = .ok w'') : False := by
  unfold addSecretShard at h1 h2
  inv_ok at h1
  obtain ⟨s, d, l, hs, hd, h3, h4, hp, rfl⟩ := h1
  inv_ok at h2
  obtain ⟨s', d', l', hs', hd', h3', h4', hp', rfl⟩ := h2
  have : s' = s := by
    have : some s' = some s := by rw [← hs, ← hs']; rfl
    simpa using this
  subst this
  simp [World.putNft] at hd'; subst hd'
  cases l with
  | none => simp at h4'
  | some l => simp [World.putNft, FMap.get_set] at hp'; exact pushShard_twice hp hp'

theorem addCapsuleShard_twice {n} (h1 : addCapsuleShard c w a n = .ok w') (h2 : addCapsuleShard c w' a n = .ok w'') : False := by
  unfold addCapsuleShard at h1 h2
  inv_ok at h1
  obtain ⟨s, d, l, hs, hd, h3, h4, hp, rfl⟩ := h1
  inv_ok at h2
  obtain ⟨s', d', l', hs', hd', h3', h4', hp', rfl⟩ := h2
  have : s' = s := by
    have : some s' = some s := by rw [← hs, ← hs']; rfl
    simpa using this
  subst this
  simp [World.putNft] at hd'; subst hd'
  cases l with
  | none => simp at h4'
  | some l => simp [World.putNft, FMap.get_set] at hp'; exact pushShard_twice hp hp'

theorem dropFromColl_nfts {w1 : World} {n k} (h : dropFromColl w n k = .ok w1) : w1.nfts = w.nfts := by
  cases k <;> simp only [dropFromColl] at h <;> inv_ok at h
  · rw [h]
  · obtain ⟨_, _, _, rfl⟩ := h; rfl

theorem twice {x : Call} (hx : ¬ EachCounts (.nft x)) (h1 : call c w a x = .ok w') (h2 : call c w' a x = .ok w'') :
    OnlyEvents w' w'' := by
  unfold OnlyEvents
  cases x <;> simp only [EachCounts, not_true_eq_false, not_false_eq_true] at hx <;> simp only [call] at h1 h2
  case addSecretShard n => exact (addSecretShard_twice h1 h2).elim
  case addCapsuleShard n => exact (addCapsuleShard_twice h1 h2).elim
  case burnNft n =>
    unfold burnNft at h1 h2
    open_twice h1 h2
    simp at *
  case transferNft n r =>
    unfold transferNft at h1 h2
    open_twice h1 h2
    simp_all [World.putNft]
    subst_vars; simp_all
  case delegateNft n r =>
    unfold delegateNft at h1 h2
    open_twice h1 h2
    simp_all [World.putNft]
    subst_vars; simp
  case setRoyalty n r =>
    unfold setRoyalty at h1 h2
    open_twice h1 h2
    simp_all [World.putNft]
    subst_vars; simp
  case burnColl k =>
    unfold burnColl at h1 h2
    open_twice h1 h2
    simp_all
  case closeColl k =>
    unfold closeColl at h1 h2
    open_twice h1 h2
    simp_all
    subst_vars; simp
  case limitColl k l =>
    unfold limitColl at h1 h2
    open_twice h1 h2
    simp_all
    subst_vars; simp_all
  case addToColl n k =>
    unfold addToColl at h1 h2
    open_twice h1 h2
    simp_all [World.putNft]
    subst_vars; simp_all
  case addSecret n d =>
    unfold addSecret addSecretHelper at h1 h2
    open_twice h1 h2
    simp_all [World.putNft, World.putBal]
    subst_vars; simp_all
  case toCapsule n d =>
    unfold toCapsule toCapsuleHelper at h1 h2
    open_twice h1 h2
    simp_all [World.putNft, World.putBal]
    subst_vars; simp_all
  case setCapsuleData n d =>
    unfold setCapsuleData at h1 h2
    open_twice h1 h2
    simp_all
  case notifyKey n =>
    unfold notifyKey at h1 h2
    open_twice h1 h2
    simp_all [World.putNft, World.putBal]
    subst_vars; simp_all
  case setCollData n d =>
    unfold setCollData at h1 h2
    open_twice h1 h2
    simp_all
    subst_vars; simp_all

end NftM

namespace MktM

theorem apply_apply {α : Type} (old : Option α) (f : ConfigOp α) : apply (apply old f) f = apply old f := by
  cases f <;> rfl

theorem twice {x : Call} (hx : ¬ EachCounts (.mkt x)) (h1 : call c w a x = .ok w') (h2 : call c w' a x = .ok w'') :
    OnlyEvents w' w'' := by
  unfold OnlyEvents
  cases x <;> simp only [EachCounts, not_true_eq_false, not_false_eq_true] at hx <;> simp only [call] at h1 h2
  case setOwner m r =>
    unfold setOwner at h1 h2
    open_twice h1 h2
    simp_all
    subst_vars; simp_all
  case setKind m r =>
    unfold setKind at h1 h2
    open_twice h1 h2
    simp_all
    subst_vars; simp_all
  case setConfig m _ _ _ _ _ =>
    unfold setConfig at h1 h2
    open_twice h1 h2
    simp_all
    subst_vars; simp_all [apply_apply]
  case list n m p =>
    unfold list at h1 h2
    open_twice h1 h2
    simp_all [World.putNft, World.putBal]
    subst_vars; simp_all
  case unlist n =>
    unfold unlist at h1 h2
    open_twice h1 h2
    simp_all [World.putNft, World.putBal]
  case buy n p =>
    unfold buy at h1 h2
    open_twice h1 h2
    simp_all [World.putNft, World.putBal]

end MktM

namespace AucM

theorem findBid_removeBid {l : List (AccountId × Balance)} (h : (l.map Prod.fst).Nodup) : findBid a (removeBid a l) = none := by
  induction l with
  | nil => rfl
  | cons x t ih =>
    obtain ⟨m, v⟩ := x
    have h' : m ∉ t.map Prod.fst ∧ (t.map Prod.fst).Nodup := by simpa using h
    by_cases e : m = a
    · subst e
      simp only [removeBid, if_true]
      clear ih h
      induction t with
      | nil => rfl
      | cons y t ih =>
        obtain ⟨k, u⟩ := y
        have : m ≠ k ∧ m ∉ t.map Prod.fst := by simpa using h'.1
        simp only [findBid, Ne.symm this.1, if_false]
        exact ih ⟨this.2, by have := h'.2; simp at this ⊢; exact this.2⟩
    · simp [removeBid, findBid, e, ih h'.2]

theorem insertBid_last {l l' d} {v : Balance} (h : insertBid c l a v = .ok (d, l')) : l'.getLast? = some (a, v) := by
  unfold insertBid at h
  split at h
  · split at h <;> simp at h
    rw [← h.2]; simp
  · simp at h; rw [← h.2]; simp

theorem addBid_made {n v} (h : addBid c w a n v = .ok w') :
    ∃ x, w'.auc.auctions.get n = some x ∧ x.bids.getLast? = some (a, v) := by
  unfold addBid at h
  inv_ok at h
  obtain ⟨x, b, ⟨d, l⟩, h⟩ := h
  simp only [Exec.bind_ok, Exec.pure_ok] at h
  obtain ⟨_, _, _, _, _, _, _, hi, hq, rfl⟩ := h
  refine ⟨_, FMap.get_insert_self _ _ _, ?_⟩
  rw [extend_bids]; exact insertBid_last hi

theorem addBid_twice {n v} (h1 : addBid c w a n v = .ok w') (h2 : addBid c w' a n v = .ok w'') : False := by
  obtain ⟨x, hx, hl⟩ := addBid_made h1
  unfold addBid at h2
  inv_ok at h2
  obtain ⟨x', b, ⟨d, l⟩, h⟩ := h2
  simp only [Exec.bind_ok, Exec.pure_ok] at h
  obtain ⟨_, hx', _, _, _, hb, _⟩ := h
  obtain rfl : x' = x := by simpa [hx] using hx'.symm
  simp [beats, hl] at hb

theorem twice {x : Call} (hc : c.Ok) (hr : Reach c w) (h1 : call c w a x = .ok w') (h2 : call c w' a x = .ok w'') : False := by
  cases x <;> simp only [call] at h1 h2
  case create n m s e p b =>
    unfold create at h1 h2
    open_twice h1 h2
    simp_all [World.putNft, World.putBal]
    subst_vars; simp_all
  case cancel n =>
    unfold cancel at h1 h2
    open_twice h1 h2
    simp_all [World.putNft, World.putBal]
  case end_ n =>
    unfold end_ at h1 h2
    open_twice h1 h2
    simp_all [World.putNft, World.putBal, World.ev]
  case addBid n v => exact addBid_twice h1 h2
  case removeBid n =>
    unfold removeBidCall at h1 h2
    inv_ok at h1
    obtain ⟨x, v, b, hx, _, _, _, rfl⟩ := h1
    inv_ok at h2
    obtain ⟨x', v', b', hx', _, hv', _, rfl⟩ := h2
    simp [World.putBal] at hx'; subst hx'
    simp [findBid_removeBid ((hr.auc hc).ok n x hx).one] at hv'
  case buyItNow n p =>
    unfold buyItNow at h1 h2
    open_twice h1 h2
    simp_all [World.putNft, World.putBal, World.ev]
  case claim =>
    unfold claim at h1 h2
    open_twice h1 h2
    simp_all [World.putBal]

end AucM

namespace RentM

theorem started_offers {n k r} (h : startContract c w n k r = .ok w') :
    w'.rent.offers.get n = none ∧ ∃ k', w'.rent.contracts.get n = some k' ∧ k'.rentee = some r := by
  unfold startContract at h
  inv_ok at h
  obtain ⟨w1, r1, h1, h2, rfl⟩ := h
  simp

theorem makeOffer_twice {n b} (h1 : makeOffer c w a n b = .ok w') (h2 : makeOffer c w' a n b = .ok w'') : False := by
  have : a ∈ (w'.rent.offers.get n).getD [] := by
    unfold makeOffer at h1
    inv_ok at h1
    casesm* _ ∧ _, ∃ _, _
    subst_vars
    simp [World.ev]
  unfold makeOffer at h2
  simp only [Exec.bind_ok, Exec.require_ok, Exec.exists_unit] at h2
  obtain ⟨h, _⟩ := h2
  exact h this

theorem gone {n} (hx : w'.rent.contracts.get n = none) {x : Call} (hn : x = .cancel n ∨ x = .revoke n)
    (h : call c w' a x = .ok w'') : False := by
  rcases hn with rfl | rfl <;> simp only [call, cancel, revoke, Exec.bind_ok, Exec.getOr_ok, hx] at h <;> simp at h

theorem cancel_gone {n} (h : cancel c w a n = .ok w') : w'.rent.contracts.get n = none := by
  unfold cancel at h
  inv_ok at h
  obtain ⟨k, _, _, _, h⟩ := h
  obtain ⟨_, _, _, _, _, _, _, _, rfl⟩ := finished_ok (ext_ok h)
  simp

theorem revoke_gone {n} (h : revoke c w a n = .ok w') : w'.rent.contracts.get n = none := by
  obtain ⟨_, _, _, _, _, _, _, _, _, _, _, _, _, _, _, rfl⟩ := revoke_ok h
  simp

theorem retract_twice {n} (hn : ((w.rent.offers.get n).getD []).Nodup)
    (h1 : retractOffer w a n = .ok w') (h2 : retractOffer w' a n = .ok w'') : False := by
  unfold retractOffer at h1 h2
  inv_ok at h1
  obtain ⟨l, hl, _, rfl⟩ := h1
  inv_ok at h2
  obtain ⟨l', hl', h, rfl⟩ := h2
  simp [hl] at hn
  simp at hl'; subst hl'
  exact hn.not_mem_erase h

theorem twice {x : Call} (hn : ∀ n, ((w.rent.offers.get n).getD []).Nodup) (h1 : call c w a x = .ok w')
    (h2 : call c w' a x = .ok w'') : OnlyEvents w' w'' := by
  unfold OnlyEvents
  cases x <;> simp only [call] at h1 h2
  case create n d acc r f y z =>
    unfold create at h1 h2
    open_twice h1 h2
    simp_all [World.putNft, World.putBal, World.ev]
    subst_vars; simp_all [valid]
  case cancel n => exact (gone (cancel_gone h1) (.inl rfl) h2).elim
  case revoke n => exact (gone (revoke_gone h1) (.inr rfl) h2).elim
  case rent n b =>
    unfold rent at h1 h2
    inv_ok at h1
    obtain ⟨_, _, _, _, _, _, _, h1⟩ := h1
    obtain ⟨_, k, hk, hs⟩ := started_offers h1
    inv_ok at h2
    obtain ⟨k', hk', _, hs', _⟩ := h2
    simp_all
  case makeOffer n b => exact (makeOffer_twice h1 h2).elim
  case acceptOffer n r =>
    unfold acceptOffer at h1 h2
    inv_ok at h1
    obtain ⟨_, _, _, _, _, _, h1⟩ := h1
    have := (started_offers h1).1
    inv_ok at h2
    obtain ⟨k', _, _, ho, _⟩ := h2
    simp_all
  case retractOffer n => exact (retract_twice (hn n) h1 h2).elim
  case changeTerms n f p m ch =>
    unfold changeTerms at h1 h2
    inv_ok at h1
    obtain ⟨k, hk, _, _, _, _, _, _, rfl⟩ := h1
    inv_ok at h2
    obtain ⟨k', hk', _, _, _, _, _, _, rfl⟩ := h2
    simp at hk'; subst hk'
    cases k.rentee <;> simp
  case acceptTerms n f p m ch =>
    unfold acceptTerms at h1 h2
    inv_ok at h1
    obtain ⟨k, s, hk, _, _, _, _, _, _, _, rfl⟩ := h1
    inv_ok at h2
    obtain ⟨k', s', hk', hs', _, hn', _, _, _, _, rfl⟩ := h2
    simp at hk'; subst hk'
    simp at hs'; subst hs'
    simp at hn'

end RentM

namespace TrM

theorem consentEffect_twice {n p t l} (h : consentEffect c w n p t l a = .ok w') (ha : a ∈ l) :
    w'.tr.trans.get n = none ∨ w'.tr.trans.get n = w.tr.trans.get n ∧
      (a ∈ (w'.tr.consents.get n).getD [] ∨ (endBlock p).isSome ∧ (w'.tr.queue.find n).isSome) := by
  have ht : ∀ {w1 w2 : World}, transmit w1 n = .ok w2 → w2.tr.trans.get n = none := by
    intro w1 w2 h
    unfold transmit at h
    inv_ok at h
    obtain ⟨_, _, _, _, rfl⟩ := h
    simp
  unfold consentEffect at h
  split at h
  · inv_ok at h; subst h; right; simp [World.ev, ha]
  · split at h
    · rename_i e he
      split at h
      · inv_ok at h; obtain ⟨w1, h1, rfl⟩ := h; left; simp [World.ev, ht h1]
      · inv_ok at h
        obtain ⟨q, hq, rfl⟩ := h
        right
        refine ⟨rfl, .inr ⟨by simp [he], ?_⟩⟩
        simp only [enqueue] at hq
        inv_ok at hq
        obtain ⟨_, hq⟩ := hq
        simp only [Queue.insert] at hq
        split at hq <;> simp at hq
        subst hq
        simp only [World.ev]
        clear * -
        induction w.tr.queue with
        | nil => simp [Queue.ins, Queue.find]
        | cons x t ih =>
          obtain ⟨m, b⟩ := x
          simp only [Queue.ins]
          split <;> simp only [Queue.find] <;> split <;> simp_all
    · inv_ok at h; obtain ⟨w1, h1, rfl⟩ := h; left; simp [World.ev, ht h1]

theorem addConsent_twice {n} (h1 : addConsent c w a n = .ok w') (h2 : addConsent c w' a n = .ok w'') : False := by
  unfold addConsent at h1 h2
  inv_ok at h1
  obtain ⟨d, t, x, _, _, ht, hx, _, _, _, _, h⟩ := h1
  have := consentEffect_twice h (by simp)
  inv_ok at h2
  obtain ⟨d', t', x', _, _, ht', hx', hq, _, ho, _, _⟩ := h2
  rcases this with h0 | ⟨e, h0 | ⟨h3, h4⟩⟩
  · simp [h0] at ht'
  · exact ho h0
  · rw [e, ht] at ht'
    obtain rfl : t = t' := by simpa using ht'
    have : kind t.protocol = .onConsentAtBlock := by
      cases hp : t.protocol <;> simp_all [consentData, endBlock, kind]
    simp [hq this] at h4

theorem update_twice {q q1 q2 : Queue} {l n : Nat} {b : Block} (hq : q.WF) (h1 : q.update l n b = .ok q1)
    (h2 : q1.update l n b = .ok q2) : q2 = q1 := by
  unfold Queue.update at h1
  split at h1
  · rw [Exec.expect_ok] at h1
    unfold Queue.update at h2
    split at h2
    · rw [Exec.expect_ok, Queue.remove_insert h1 (by simp [Queue.mem_ids_remove hq]), h1] at h2
      simpa using h2.symm
    · simpa using h2.symm
  · simp at h1; subst h1
    unfold Queue.update at h2
    rw [if_neg ‹_›] at h2
    simpa using h2.symm

theorem twice {x : Call} (hq : w.tr.queue.WF) (h1 : call c w a x = .ok w') (h2 : call c w' a x = .ok w'') :
    OnlyEvents w' w'' := by
  unfold OnlyEvents
  cases x <;> simp only [call] at h1 h2
  case set n r p k =>
    unfold set at h1 h2
    open_twice h1 h2
    simp_all [World.putNft, World.putBal, World.ev]
    subst_vars; simp_all
  case remove n =>
    unfold remove at h1 h2
    open_twice h1 h2
    simp_all [World.putNft]
  case resetTimer n b =>
    unfold resetTimer at h1 h2
    inv_ok at h1
    obtain ⟨d, t, q, hd, _, _, ht, _, _, _, hu, rfl⟩ := h1
    inv_ok at h2
    obtain ⟨d', t', q', hd', _, _, ht', _, _, _, hu', rfl⟩ := h2
    simp at ht'; subst ht'
    simp [update_twice hq hu hu']
  case addConsent n => exact (addConsent_twice h1 h2).elim

end TrM

namespace BrM

theorem vote_twice {o : Option Proposal} {x y : Proposal × Bool} (h1 : vote c w a o = .ok x)
    (h2 : vote c w' a (some x.1) = .ok y) : False := by
  have : a ∈ x.1.votes := by
    unfold vote at h1
    split at h1 <;> inv_ok at h1 <;> casesm* _ ∧ _ <;> subst_vars <;> unfold complete <;> split <;> simp
  unfold vote at h2
  inv_ok at h2
  exact h2.2.2.1 this

theorem twice {x : Call} (hx : ¬ EachCounts (.br x)) (h1 : call c w a x = .ok w') (h2 : call c w' a x = .ok w'') :
    False := by
  cases x <;> simp only [EachCounts, not_true_eq_false, not_false_eq_true] at hx
  simp only [call] at h1 h2
  unfold voteFor at h1 h2
  inv_ok at h1
  obtain ⟨x, _, _, hv, rfl⟩ := h1
  inv_ok at h2
  obtain ⟨y, _, _, hv', rfl⟩ := h2
  cases e : x.2 <;> rw [e] at hv' <;> simp [payout, World.ev, World.putBal] at hv' <;> exact vote_twice hv hv'

theorem ext_twice {x : ExtCall} (h1 : ext c w x = .ok w') (h2 : ext c w' x = .ok w'') : OnlyEvents w' w'' := by
  unfold OnlyEvents
  cases x <;> simp only [ext] at h1 h2
  case setThreshold t => unfold setThreshold at h1 h2; open_twice h1 h2; rfl
  case addChain k =>
    unfold addChain at h1 h2
    open_twice h1 h2
    simp_all [allowed]
  case setRelayers l => simp [setRelayers] at h1 h2; subst h1; subst h2; rfl
  case setNonce k n =>
    unfold setNonce at h1 h2
    open_twice h1 h2
    simp_all
  case setFee x => simp [setFee] at h1 h2; subst h1; subst h2; rfl
  case setExtra x => simp at h1 h2; subst h1; subst h2; rfl

end BrM

namespace TeeM

theorem putReport_self {r : Report} {l l' : List Report} (h : putReport r l = some l') : putReport r l' = some l' := by
  induction l generalizing l' with
  | nil => simp [putReport] at h
  | cons x t ih =>
    simp only [putReport] at h
    split at h
    · simp at h; subst h; simp [putReport]
    · simp only [Option.map_eq_some_iff] at h
      obtain ⟨t', ht, rfl⟩ := h
      simp [putReport, ‹¬ _›, ih ht]

theorem addReport_self {r : Report} {l l1 l2 : List Report} (h1 : addReport c l r = .ok l1) (h2 : addReport c l1 r = .ok l2) :
    l2 = l1 := by
  have : putReport r l1 = some l1 := by
    unfold addReport at h1
    split at h1
    · rename_i e; simp [pure, Except.pure] at h1; subst h1; exact putReport_self e
    · rename_i e
      inv_ok at h1
      obtain ⟨_, rfl⟩ := h1
      clear h2
      induction l with
      | nil => simp [putReport]
      | cons x t ih =>
        simp only [putReport] at e
        split at e
        · simp at e
        · simp at e
          simp [putReport, ‹¬ _›]
          exact ih e (by simp at *; omega)
  unfold addReport at h2
  simp [this, pure, Except.pure] at h2
  exact h2.symm

theorem setKind_setKind (b : AccountId) (t : ClusterType) (l : List MetricsServer) : setKind b t (setKind b t l) = setKind b t l := by
  induction l with
  | nil => rfl
  | cons x r ih => simp only [setKind]; split <;> simp_all [setKind]

theorem unassign_gone {op} (h : unassign w op = .ok w') : w'.tee.data.get op = none := by
  unfold unassign at h
  inv_ok at h
  casesm* _ ∧ _, ∃ _, _
  subst_vars
  simp

theorem unassign_gone' {op} (h : w.tee.data.get op = none) (h2 : unassign w op = .ok w') : False := by
  unfold unassign at h2
  simp only [Exec.bind_ok, Exec.getOr_ok, h] at h2
  simp at h2

theorem dropRegistration_twice {op} (h1 : dropRegistration w op = .ok w') (h2 : dropRegistration w' op = .ok w'') : False := by
  unfold dropRegistration at h1 h2
  open_twice h1 h2
  simp_all

theorem dropUpdate_twice {op} (h1 : dropUpdate w op = .ok w') (h2 : dropUpdate w' op = .ok w'') : False := by
  unfold dropUpdate at h1 h2
  open_twice h1 h2
  simp_all

theorem unregister_twice (h1 : unregister c w a = .ok w') (h2 : unregister c w' a = .ok w'') : False := by
  unfold unregister at h1
  split at h1
  · rename_i e he
    unfold unregisterAssigned at h1
    inv_ok at h1
    obtain ⟨s, _, _, hs, rfl⟩ := h1
    unfold unregister at h2
    simp only [he] at h2
    unfold unregisterAssigned at h2
    inv_ok at h2
    obtain ⟨_, hn, _⟩ := h2
    simp at hn
  · rename_i he
    have hn : w'.tee.data.get a = none := by
      unfold dropRegistration at h1
      inv_ok at h1
      obtain ⟨_, _, rfl⟩ := h1
      exact he
    unfold unregister at h2
    simp only [hn] at h2
    exact dropRegistration_twice h1 h2

theorem twice {x : Call} (h1 : call c w a x = .ok w') (h2 : call c w' a x = .ok w'') : OnlyEvents w' w'' := by
  unfold OnlyEvents
  cases x <;> simp only [call] at h1 h2
  case register b u =>
    unfold register at h1 h2
    open_twice h1 h2
    simp_all
  case unregister => exact (unregister_twice h1 h2).elim
  case update b u =>
    unfold update at h1 h2
    open_twice h1 h2
    simp_all
  case cancelUpdate => exact (dropUpdate_twice h1 h2).elim
  case withdraw =>
    unfold withdraw at h1 h2
    open_twice h1 h2
    simp_all
  case submitReport op r =>
    unfold submitReport at h1 h2
    inv_ok at h1
    obtain ⟨s, e, act, l, hs, _, he, ha, hl, rfl⟩ := h1
    inv_ok at h2
    obtain ⟨s', e', act', l', hs', _, he', ha', hl', rfl⟩ := h2
    simp [World.ev] at ha' hl'
    obtain rfl : act' = act := by rw [ha] at ha'; simpa using ha'.symm
    simp at hl'
    simp [World.ev, addReport_self hl hl']
  case claim e =>
    unfold claim at h1 h2
    open_twice h1 h2
    simp_all [World.ev]
  case bondExtra =>
    unfold bondExtra at h1 h2
    open_twice h1 h2
    simp_all [World.putBal]
    subst_vars; simp_all
  case refundExcess =>
    unfold refundExcess at h1 h2
    open_twice h1 h2
    simp_all [World.putBal]
    subst_vars; simp_all

theorem forceUpdate_twice {op ad u} (h1 : forceUpdate w op ad u = .ok w') (h2 : forceUpdate w' op ad u = .ok w'') :
    OnlyEvents w' w'' := by
  unfold OnlyEvents
  unfold forceUpdate at h1 h2
  inv_ok at h1
  obtain ⟨e, x, _, he, hf, _, rfl⟩ := h1
  inv_ok at h2
  obtain ⟨e', x', _, he', hf', _, rfl⟩ := h2
  simp at he'; subst he'
  cases ad with
  | none =>
    simp only [forceAddr] at hf hf'
    inv_ok at hf; inv_ok at hf'
    subst hf; subst hf'
    cases u <;> simp
  | some b =>
    simp only [forceAddr] at hf hf'
    inv_ok at hf; inv_ok at hf'
    obtain ⟨_, _, rfl⟩ := hf
    obtain ⟨_, _, rfl⟩ := hf'
    cases u <;> simp

theorem approveUpdate_twice {op} (h1 : approveUpdate w op = .ok w') (h2 : approveUpdate w' op = .ok w'') : False := by
  have : w'.tee.updates.get op = none := by
    unfold approveUpdate at h1
    inv_ok at h1
    casesm* _ ∧ _, ∃ _, _
    subst_vars
    simp
  unfold approveUpdate at h2
  simp only [Exec.bind_ok, Exec.getOr_ok, this] at h2
  simp at h2

theorem root_twice {x : RootCall} (hs : (w.tee.servers.map MetricsServer.addr).Nodup) (hx : ¬ EachCounts (.root (.tee x)))
    (h1 : root c w x = .ok w') (h2 : root c w' x = .ok w'') : OnlyEvents w' w'' := by
  unfold OnlyEvents
  cases x <;> simp only [EachCounts, not_true_eq_false, not_false_eq_true] at hx <;> simp only [root] at h1 h2
  case assign op k s =>
    unfold assign at h1 h2
    open_twice h1 h2
    simp_all
  case removeRegistration op => exact (dropRegistration_twice h1 h2).elim
  case rejectUpdate op => exact (dropUpdate_twice h1 h2).elim
  case approveUnregister op =>
    unfold approveUnregister at h1 h2
    inv_ok at h1; inv_ok at h2
    exact (unassign_gone' (unassign_gone h1.2) h2.2).elim
  case forceRemove op =>
    unfold forceRemove at h1 h2
    inv_ok at h1
    obtain ⟨w1, s, h1, _, rfl⟩ := h1
    inv_ok at h2
    obtain ⟨w2, s2, h2, _, rfl⟩ := h2
    exact (unassign_gone' (by simpa using unassign_gone h1) h2).elim
  case approveUpdate op => exact (approveUpdate_twice h1 h2).elim
  case forceUpdate op b u => exact forceUpdate_twice h1 h2
  case updateCluster k t =>
    unfold updateCluster at h1 h2
    open_twice h1 h2
    simp_all
    subst_vars; simp_all
  case removeCluster k =>
    unfold removeCluster at h1 h2
    open_twice h1 h2
    simp_all
  case registerServer s =>
    unfold registerServer at h1 h2
    inv_ok at h1
    obtain ⟨_, _, rfl⟩ := h1
    inv_ok at h2
    exact absurd rfl (h2.1 s (by simp))
  case unregisterServer b =>
    unfold unregisterServer at h1 h2
    inv_ok at h1
    obtain ⟨_, _, _, rfl⟩ := h1
    inv_ok at h2
    obtain ⟨y, hy, e, rfl⟩ := h2
    rw [(swapRemoveBy_key MetricsServer.addr b hs).mem_iff, List.mem_filter] at hy
    simp [e] at hy
  case setServerType b t =>
    unfold setServerType at h1 h2
    open_twice h1 h2
    simp [setKind_setKind]
  case setWeights p => simp [setWeights] at h1 h2; subst h1; subst h2; rfl
  case setStakingAmount p => simp [setStakingAmount] at h1 h2; subst h1; subst h2; rfl
  case setPool p => simp [setPool] at h1 h2; subst h1; subst h2; rfl
  case setAssignedEra op e =>
    unfold setAssignedEra at h1 h2
    open_twice h1 h2
    simp_all

end TeeM

theorem root_twice' {x : RootCall} (hs : (w.tee.servers.map MetricsServer.addr).Nodup) (hx : ¬ EachCounts (.root x))
    (h1 : rootCall c w x = .ok w') (h2 : rootCall c w' x = .ok w'') : OnlyEvents w' w'' := by
  cases x <;> simp only [rootCall] at h1 h2
  case tee x => exact TeeM.root_twice hs hx h1 h2
  case trFee k x => cases k <;> simp [TrM.setFee] at h1 h2 <;> subst h1 <;> subst h2 <;> rfl
  all_goals
    simp [NftM.setMintFee, NftM.setSecretFee, NftM.setCapsuleFee, MktM.setMintFee] at h1 h2
    subst h1; subst h2; rfl

/-- a world without its events -/
def silent (w : World) : World := { w with evs := [] }

theorem map_bind' {α β γ : Type} (g : β → γ) (x : Except Err α) (f : α → Except Err β) :
    (x >>= f).map g = x >>= fun v => (f v).map g := by cases x <;> rfl

theorem bind_map' {α β γ : Type} (g : α → β) (x : Except Err α) (f : β → Except Err γ) :
    x.map g >>= f = x >>= fun v => f (g v) := by cases x <;> rfl

theorem map_pure' {α β : Type} (g : α → β) (x : α) : (pure x : Except Err α).map g = pure (g x) := rfl

theorem unassign_silent (op : AccountId) (w : World) : TeeM.unassign (silent w) op = (TeeM.unassign w op).map silent := by
  simp only [TeeM.unassign, map_bind', map_pure']; rfl

theorem approveAddr_silent (op : AccountId) (e : Enclave) (b : AccountId) (w : World) :
    TeeM.approveAddr (silent w) op e b = (TeeM.approveAddr w op e b).map silent := by
  unfold TeeM.approveAddr
  split
  · rfl
  · simp only [map_bind', map_pure']; rfl

theorem forceAddr_silent (op : AccountId) (e : Enclave) (b : Option AccountId) (w : World) :
    TeeM.forceAddr (silent w) op e b = (TeeM.forceAddr w op e b).map fun y => (silent y.1, y.2) := by
  cases b with
  | none => rfl
  | some b =>
    simp only [TeeM.forceAddr, map_bind', map_pure']
    by_cases h : e.addr = b <;> simp only [h, if_true, if_false] <;> rfl

theorem root_silent (x : TeeM.RootCall) (w : World) : TeeM.root c (silent w) x = (TeeM.root c w x).map silent := by
  cases x <;>
    simp only [TeeM.root, TeeM.assign, TeeM.dropRegistration, TeeM.dropUpdate, TeeM.approveUnregister, TeeM.forceRemove,
      TeeM.approveUpdate, TeeM.forceUpdate, TeeM.createCluster, TeeM.updateCluster,
      TeeM.removeCluster, TeeM.registerServer, TeeM.unregisterServer, TeeM.setServerType, TeeM.setWeights,
      TeeM.setStakingAmount, TeeM.setPool, TeeM.setAssignedEra, map_bind', map_pure', unassign_silent, approveAddr_silent,
      forceAddr_silent, bind_map'] <;> rfl

theorem ext_silent (x : BrM.ExtCall) (w : World) : BrM.ext c (silent w) x = (BrM.ext c w x).map silent := by
  cases x <;> simp only [BrM.ext, BrM.setThreshold, BrM.addChain, BrM.setNonce, map_bind', map_pure'] <;> rfl

theorem rootCall_silent (x : RootCall) (w : World) : rootCall c (silent w) x = (rootCall c w x).map silent := by
  cases x
  case tee x => exact root_silent x w
  case trFee k x => cases k <;> rfl
  all_goals rfl

theorem dispatch_silent (x : Call) (w : World) :
    (dispatch c x .root (silent w)).map silent = (dispatch c x .root w).map silent := by
  induction x generalizing w with
  | mandate x ih =>
    have ih := ih w
    simp only [dispatch]
    revert ih
    generalize dispatch c x .root (silent w) = r1
    generalize dispatch c x .root w = r2
    intro ih
    cases r1 with
    | ok a =>
      cases r2 with
      | ok b =>
        simp only [Except.map, Except.ok.injEq] at ih
        simp only [mandateResult, Except.map, Except.ok.injEq]
        exact ih
      | error e => simp [Except.map] at ih
    | error e =>
      cases r2 with
      | ok b => simp [Except.map] at ih
      | error e' =>
        simp only [Except.map, Except.error.injEq] at ih
        subst ih
        cases e <;> rfl
  | root x => simp only [dispatch, rootCall_silent]; cases rootCall c w x <;> rfl
  | ext x => simp only [dispatch, ext_silent]; cases BrM.ext c w x <;> rfl
  | _ => rfl

theorem onlyEvents_iff : OnlyEvents w w' ↔ silent w' = silent w := by
  unfold OnlyEvents silent
  constructor
  · intro h; rw [h]
  · intro h
    have : ({ w' with evs := [] } : World).evs = [] := rfl
    cases w; cases w'
    simp_all

theorem dispatch_twice (hc : c.Ok) (hr : Reach c w) (hn : ∀ n l, w.rent.offers.get n = some l → l.Nodup) {x : Call} {o : Origin}
    (hx : ¬ EachCounts x) (h1 : dispatch c x o w = .ok w') (h2 : dispatch c x o w' = .ok w'') : OnlyEvents w' w'' := by
  have hn' : ∀ n, ((w.rent.offers.get n).getD []).Nodup := by
    intro n
    cases e : w.rent.offers.get n with
    | none => simp
    | some l => simpa using hn n l e
  induction x generalizing o w' w'' with
  | mandate x ih =>
    have key : ∀ {w1 w2}, mandateResult w (dispatch c x .root w) = .ok w1 → mandateResult w1 (dispatch c x .root w1) = .ok w2 →
        OnlyEvents w1 w2 := by
      intro w1 w2 e1 e2
      rw [onlyEvents_iff]
      cases r1 : dispatch c x .root w with
      | ok v =>
        simp only [r1, mandateResult, Except.ok.injEq] at e1
        have hs := dispatch_silent (c := c) x w1
        have hv : silent w1 = silent v := by rw [← e1]; rfl
        rw [hv, dispatch_silent] at hs
        cases r2 : dispatch c x .root w1 with
        | ok u =>
          simp only [r2, mandateResult, Except.ok.injEq] at e2
          cases r3 : dispatch c x .root v with
          | ok t =>
            have := onlyEvents_iff.1 (ih (o := .root) hx r1 r3)
            simp only [r2, r3, Except.map, Except.ok.injEq] at hs
            rw [hv, ← this, hs, ← e2]; rfl
          | error e => simp [r2, r3, Except.map] at hs
        | error e =>
          cases e with
          | e s => simp only [r2, mandateResult, Except.ok.injEq] at e2; rw [← e2]; rfl
          | panic s => simp [r2, mandateResult] at e2
      | error e =>
        cases e with
        | e s =>
          simp only [r1, mandateResult, Except.ok.injEq] at e1
          have hs := dispatch_silent (c := c) x w1
          have hv : silent w1 = silent w := by rw [← e1]; rfl
          rw [hv, dispatch_silent, r1] at hs
          cases r2 : dispatch c x .root w1 with
          | ok u => simp [r2, Except.map] at hs
          | error e =>
            cases e with
            | e s => simp only [r2, mandateResult, Except.ok.injEq] at e2; rw [← e2]; rfl
            | panic s => simp [r2, mandateResult] at e2
        | panic s => simp [r1, mandateResult] at e1
    cases o with
    | signed a => simp [dispatch, signedCall] at h1
    | root => simp only [dispatch] at h1 h2; exact key h1 h2
    | ext => simp only [dispatch] at h1 h2; exact key h1 h2
  | root x => cases o <;> simp [dispatch, signedCall] at h1 h2; exact root_twice' hr.ginv.srv hx h1 h2
  | ext x => cases o <;> simp [dispatch, signedCall] at h1 h2 <;> exact BrM.ext_twice h1 h2
  | nft x => cases o <;> simp [dispatch, signedCall] at h1 h2; exact NftM.twice hx h1 h2
  | mkt x => cases o <;> simp [dispatch, signedCall] at h1 h2; exact MktM.twice hx h1 h2
  | auc x => cases o <;> simp [dispatch, signedCall] at h1 h2; exact (AucM.twice hc hr h1 h2).elim
  | rent x => cases o <;> simp [dispatch, signedCall] at h1 h2; exact RentM.twice hn' h1 h2
  | tr x => cases o <;> simp [dispatch, signedCall] at h1 h2; exact TrM.twice (hr.inv hc).tr.wf h1 h2
  | tee x => cases o <;> simp [dispatch, signedCall] at h1 h2; exact TeeM.twice h1 h2
  | br x => cases o <;> simp [dispatch, signedCall] at h1 h2; exact (BrM.twice hx h1 h2).elim
  | bal d v l => simp [EachCounts] at hx

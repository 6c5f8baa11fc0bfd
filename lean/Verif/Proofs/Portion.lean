import Verif.Proofs.SliceMkt
import Verif.Proofs.Code
import Verif.Proofs.Blind
/-
The loops of the hooks, cut into portions.
-/
namespace Portion

variable (c : Cfg)

/-! ### Auctions -/

/-- the chain with other deadlines of auctions -/
def dl (q : Queue) (w : World) : World := { w with auc := { w.auc with deadlines := q } }

theorem settleOne_dl (q : Queue) (w : World) (n : NFTId) :
    AucM.settleOne c (dl q w) n = (dl q (AucM.settleOne c w n).1, (AucM.settleOne c w n).2) := by
  have h1 : (dl q w).auc.auctions = w.auc.auctions := rfl
  have h2 : (dl q w).nfts = w.nfts := rfl
  cases ha : w.auc.auctions.get n with
  | none => simp only [AucM.settleOne, h1, ha]
  | some a =>
    cases hd : w.nfts.get n with
    | none => simp only [AucM.settleOne, h1, h2, ha, hd]
    | some d =>
      cases hb : a.bids.getLast? with
      | none => simp only [AucM.settleOne, h1, h2, ha, hd, hb]; rfl
      | some top =>
        have h3 : AucM.payForNft c (dl q w) n c.aucPot top.2 d a = AucM.payForNft c w n c.aucPot top.2 d a := rfl
        rcases hp : AucM.payForNft c w n c.aucPot top.2 d a with ⟨b, _ | _⟩ <;>
          simp only [AucM.settleOne, h1, h2, ha, hd, hb, h3, hp] <;> rfl

theorem aLoop_dl (q0 q : Queue) (w : World) (k : Nat) :
    AucM.hookLoop c (dl q0 w) q k = (dl q0 (AucM.hookLoop c w q k).1, (AucM.hookLoop c w q k).2) := by
  induction q generalizing w k with
  | nil => rfl
  | cons x t ih =>
    obtain ⟨n, b⟩ := x
    have hn : (dl q0 w).now = w.now := rfl
    simp only [AucM.hookLoop, hn, settleOne_dl]
    split
    · split
      · split
        · rfl
        · exact ih _ _
      · exact ih _ _
    · rfl

/-- nothing at the front is due -/
def Idle (now : Block) (q : Queue) : Prop := ∀ x ∈ q.head?, ¬ x.2 ≤ now

theorem aLoop_idle {w : World} {q : Queue} (h : Idle w.now q) (k : Nat) : AucM.hookLoop c w q k = (w, q) := by
  cases q with
  | nil => rfl
  | cons x t =>
    have := h x rfl
    simp only [AucM.hookLoop, if_neg this]

theorem aLoop_shift (a s : Nat) (w : World) (q : Queue) (k : Nat) :
    AucM.hookLoop { c with aucActions := a + s } w q (k + s) = AucM.hookLoop { c with aucActions := a } w q k := by
  induction q generalizing w k with
  | nil => rfl
  | cons x t ih =>
    obtain ⟨n, b⟩ := x
    have hs : AucM.settleOne { c with aucActions := a + s } w n = AucM.settleOne { c with aucActions := a } w n := rfl
    simp only [AucM.hookLoop, hs]
    split
    · split
      · have e : (a + s ≤ k + s + 1) ↔ (a ≤ k + 1) := by omega
        simp only [e]
        split
        · rfl
        · have := ih (AucM.settleOne { c with aucActions := a } w n).1 (k + 1)
          rwa [show k + 1 + s = k + s + 1 by omega] at this
      · exact ih _ _
    · rfl

theorem aLoop_add (i j : Nat) (hj : 0 < j) (w : World) (q : Queue) (k : Nat) (hk : k < i) :
    AucM.hookLoop { c with aucActions := i + j } w q k =
      AucM.hookLoop { c with aucActions := j } (AucM.hookLoop { c with aucActions := i } w q k).1
        (AucM.hookLoop { c with aucActions := i } w q k).2 0 := by
  induction q generalizing w k with
  | nil => rfl
  | cons x t ih =>
    obtain ⟨n, b⟩ := x
    have hs : AucM.settleOne { c with aucActions := i + j } w n = AucM.settleOne { c with aucActions := i } w n := rfl
    by_cases hb : b ≤ w.now
    · simp only [AucM.hookLoop, if_pos hb, hs]
      cases hq : (AucM.settleOne { c with aucActions := i } w n).2 with
      | false => simpa using ih _ _ hk
      | true =>
        have e : ¬ i + j ≤ k + 1 := by omega
        simp only [if_true, if_neg e]
        by_cases hi : i ≤ k + 1
        · have : k + 1 = 0 + i := by omega
          simp only [if_pos hi]
          rw [this]
          have e' : i + j = j + i := Nat.add_comm i j
          simp only [e']
          exact aLoop_shift c j i _ _ 0
        · simp only [if_neg hi]
          exact ih _ _ (by omega)
    · have h1 : AucM.hookLoop { c with aucActions := i } w ((n, b) :: t) k = (w, (n, b) :: t) := by
        simp only [AucM.hookLoop, if_neg hb]
      rw [h1]
      simp only [AucM.hookLoop, if_neg hb]

theorem auc (i j : Nat) (hi : 0 < i) (hj : 0 < j) (w : World) :
    AucM.hook { c with aucActions := j } (AucM.hook { c with aucActions := i } w) =
      AucM.hook { c with aucActions := i + j } w := by
  have h := aLoop_add c i j hj w w.auc.deadlines 0 hi
  have hd := aLoop_dl { c with aucActions := j } (AucM.hookLoop { c with aucActions := i } w w.auc.deadlines 0).2
    (AucM.hookLoop { c with aucActions := i } w w.auc.deadlines 0).2
    (AucM.hookLoop { c with aucActions := i } w w.auc.deadlines 0).1 0
  rw [← h] at hd
  have he : AucM.hook { c with aucActions := i } w =
      dl (AucM.hookLoop { c with aucActions := i } w w.auc.deadlines 0).2
        (AucM.hookLoop { c with aucActions := i } w w.auc.deadlines 0).1 := rfl
  rw [he]
  show dl (AucM.hookLoop _ (dl _ _) _ 0).2 (AucM.hookLoop _ (dl _ _) _ 0).1 = dl _ _
  have hx : (dl (AucM.hookLoop { c with aucActions := i } w w.auc.deadlines 0).2
        (AucM.hookLoop { c with aucActions := i } w w.auc.deadlines 0).1).auc.deadlines =
      (AucM.hookLoop { c with aucActions := i } w w.auc.deadlines 0).2 := rfl
  rw [hx, hd]
  rfl

/-! ### Transmissions -/

/-- the chain with another schedule of transmissions -/
def tq (q : Queue) (w : World) : World := { w with tr := { w.tr with queue := q } }

theorem hookOne_tq (q : Queue) (w : World) (n : NFTId) :
    TrM.hookOne (tq q w) n = (tq q (TrM.hookOne w n).1, (TrM.hookOne w n).2) := by
  have h1 : (tq q w).tr.trans = w.tr.trans := rfl
  have h2 : (tq q w).nfts = w.nfts := rfl
  unfold TrM.hookOne TrM.transmit
  rw [h1, h2]
  cases w.tr.trans.get n with
  | none => rfl
  | some x =>
    cases w.nfts.get n with
    | none => rfl
    | some d => rfl

theorem tLoop_tq (q0 q : Queue) (w : World) (k : Nat) :
    TrM.hookLoop c (tq q0 w) q k = (tq q0 (TrM.hookLoop c w q k).1, (TrM.hookLoop c w q k).2) := by
  induction q generalizing w k with
  | nil => rfl
  | cons x t ih =>
    obtain ⟨n, b⟩ := x
    have hn : (tq q0 w).now = w.now := rfl
    simp only [TrM.hookLoop, hn, hookOne_tq]
    generalize (if (TrM.hookOne w n).2 = true then k + 1 else k) = k'
    split
    · split
      · rfl
      · exact ih _ _
    · rfl

theorem tLoop_idle {w : World} {q : Queue} (h : Idle w.now q) (k : Nat) : TrM.hookLoop c w q k = (w, q, k) := by
  cases q with
  | nil => rfl
  | cons x t =>
    have := h x rfl
    simp only [TrM.hookLoop, if_neg this]

theorem tLoop_shift (a s : Nat) (w : World) (q : Queue) (k : Nat) :
    TrM.hookLoop { c with trActions := a + s } w q (k + s) =
      ((TrM.hookLoop { c with trActions := a } w q k).1, (TrM.hookLoop { c with trActions := a } w q k).2.1,
        (TrM.hookLoop { c with trActions := a } w q k).2.2 + s) := by
  induction q generalizing w k with
  | nil => rfl
  | cons x t ih =>
    obtain ⟨n, b⟩ := x
    simp only [TrM.hookLoop]
    split
    · have e : (if (TrM.hookOne w n).2 then k + s + 1 else k + s) = (if (TrM.hookOne w n).2 then k + 1 else k) + s := by
        split <;> omega
      rw [e]
      generalize (if (TrM.hookOne w n).2 = true then k + 1 else k) = k'
      have e' : (a + s ≤ k' + s) ↔ (a ≤ k') := by omega
      simp only [e']
      split
      · rfl
      · exact ih _ _
    · rfl

theorem tLoop_add (i j : Nat) (hj : 0 < j) (w : World) (q : Queue) (k : Nat) (hk : k < i) :
    (TrM.hookLoop { c with trActions := i + j } w q k).1 =
      (TrM.hookLoop { c with trActions := j } (TrM.hookLoop { c with trActions := i } w q k).1
        (TrM.hookLoop { c with trActions := i } w q k).2.1 0).1 ∧
    (TrM.hookLoop { c with trActions := i + j } w q k).2.1 =
      (TrM.hookLoop { c with trActions := j } (TrM.hookLoop { c with trActions := i } w q k).1
        (TrM.hookLoop { c with trActions := i } w q k).2.1 0).2.1 ∧
    (TrM.hookLoop { c with trActions := i + j } w q k).2.2 =
      (TrM.hookLoop { c with trActions := j } (TrM.hookLoop { c with trActions := i } w q k).1
        (TrM.hookLoop { c with trActions := i } w q k).2.1 0).2.2 +
      (TrM.hookLoop { c with trActions := i } w q k).2.2 := by
  induction q generalizing w k with
  | nil => exact ⟨rfl, rfl, by simp [TrM.hookLoop]⟩
  | cons x t ih =>
    obtain ⟨n, b⟩ := x
    by_cases hb : b ≤ w.now
    · simp only [TrM.hookLoop, if_pos hb]
      have hk' : (if (TrM.hookOne w n).2 = true then k + 1 else k) ≤ i := by split <;> omega
      generalize (if (TrM.hookOne w n).2 = true then k + 1 else k) = k' at hk'
      have e : ¬ i + j ≤ k' := by omega
      simp only [if_neg e]
      by_cases hi : i ≤ k'
      · obtain rfl : k' = i := by omega
        simp only [Nat.le_refl, if_true]
        have := tLoop_shift c j k' (TrM.hookOne w n).1 t 0
        rw [Nat.zero_add, Nat.add_comm j k'] at this
        rw [this]
        exact ⟨rfl, rfl, rfl⟩
      · simp only [if_neg hi]
        exact ih _ _ (by omega)
    · have h1 : TrM.hookLoop { c with trActions := i } w ((n, b) :: t) k = (w, (n, b) :: t, k) := by
        simp only [TrM.hookLoop, if_neg hb]
      rw [h1]
      simp only [TrM.hookLoop, if_neg hb, Nat.zero_add]
      exact ⟨trivial, trivial, trivial⟩

theorem tLoop_count (w : World) (q : Queue) (k : Nat) : k ≤ (TrM.hookLoop c w q k).2.2 := by
  induction q generalizing w k with
  | nil => exact Nat.le_refl _
  | cons x t ih =>
    obtain ⟨n, b⟩ := x
    simp only [TrM.hookLoop]
    split
    · have hk' : k ≤ (if (TrM.hookOne w n).2 = true then k + 1 else k) := by split <;> omega
      generalize (if (TrM.hookOne w n).2 = true then k + 1 else k) = k' at hk'
      split
      · exact hk'
      · exact Nat.le_trans hk' (ih _ _)
    · exact Nat.le_refl _

/-- the front of the schedule can be transmitted -/
def Ready (w : World) : Prop := ∀ x ∈ w.tr.queue.head?, (TrM.hookOne w x.1).2 = true

theorem hook_eq {w : World} (h : Ready w) :
    TrM.hook c w = tq (TrM.hookLoop c w w.tr.queue 0).2.1 (TrM.hookLoop c w w.tr.queue 0).1 := by
  simp only [TrM.hook]
  split
  · rfl
  · rename_i h0
    have hid : Idle w.now w.tr.queue := by
      intro x hx hd
      cases hq : w.tr.queue with
      | nil => rw [hq] at hx; cases hx
      | cons y t =>
        have hy := h x hx
        rw [hq] at hx
        obtain rfl : y = x := by simpa using hx
        rw [hq] at h0
        apply h0
        simp only [TrM.hookLoop, if_pos hd, hy, if_true]
        split
        · exact Nat.one_pos
        · exact tLoop_count c _ t 1
    rw [tLoop_idle c hid]
    rfl

theorem tr (i j : Nat) (hi : 0 < i) (hj : 0 < j) {w : World} (h : Ready w)
    (h' : Ready (TrM.hook { c with trActions := i } w)) :
    TrM.hook { c with trActions := j } (TrM.hook { c with trActions := i } w) =
      TrM.hook { c with trActions := i + j } w := by
  rw [hook_eq _ h', hook_eq _ h, hook_eq _ h]
  obtain ⟨h1, h2, _⟩ := tLoop_add c i j hj w w.tr.queue 0 hi
  have hd := tLoop_tq { c with trActions := j } (TrM.hookLoop { c with trActions := i } w w.tr.queue 0).2.1
    (TrM.hookLoop { c with trActions := i } w w.tr.queue 0).2.1
    (TrM.hookLoop { c with trActions := i } w w.tr.queue 0).1 0
  have hx : (tq (TrM.hookLoop { c with trActions := i } w w.tr.queue 0).2.1
        (TrM.hookLoop { c with trActions := i } w w.tr.queue 0).1).tr.queue =
      (TrM.hookLoop { c with trActions := i } w w.tr.queue 0).2.1 := rfl
  rw [hx, hd, h1, h2]
  rfl

/-! ### Contracts -/

/-- the chain with other schedules of contracts -/
def rq (q f s : Queue) (w : World) : World := { w with rent := { w.rent with availQ := q, fixedQ := f, subQ := s } }

theorem handleFinished_rq (q f s : Queue) (w : World) (n : NFTId) :
    (RentM.handleFinished c n (rq q f s w)).1 = rq q f s (RentM.handleFinished c n w).1 := by
  have h : rq q f s w = Blind.world q f s w.rent.offers w := rfl
  have hk := Blind.handleFinished_keeps c n w
  rw [h, (Blind.handleFinished c n).eq w]
  show Blind.world q f s w.rent.offers _ = _
  rw [hk]
  rfl

theorem fLoop_rq (q f s : Queue) (p : Queue) (w : World) (k : Nat) :
    RentM.finishLoop c (rq q f s w) p k = (rq q f s (RentM.finishLoop c w p k).1, (RentM.finishLoop c w p k).2) := by
  induction p generalizing w k with
  | nil => rfl
  | cons x t ih =>
    obtain ⟨n, b⟩ := x
    have hn : (rq q f s w).now = w.now := rfl
    simp only [RentM.finishLoop, hn, handleFinished_rq]
    split
    · split
      · rfl
      · exact ih _ _
    · rfl

theorem fLoop_now (p : Queue) (w : World) (k : Nat) : (RentM.finishLoop c w p k).1.now = w.now := by
  induction p generalizing w k with
  | nil => rfl
  | cons x t ih =>
    obtain ⟨n, b⟩ := x
    simp only [RentM.finishLoop]
    split
    · split
      · exact RentM.handleFinished_now w n
      · exact (ih _ _).trans (RentM.handleFinished_now w n)
    · rfl

/-- ending contracts leaves the schedules alone -/
theorem fLoop_keeps (p : Queue) (w : World) (k : Nat) :
    (RentM.finishLoop c w p k).1 = rq w.rent.availQ w.rent.fixedQ w.rent.subQ (RentM.finishLoop c w p k).1 :=
  congrArg Prod.fst (fLoop_rq c w.rent.availQ w.rent.fixedQ w.rent.subQ p w k)

theorem fLoop_shift (a s : Nat) (w : World) (q : Queue) (k : Nat) :
    RentM.finishLoop { c with rentActions := a + s } w q (k + s) =
      ((RentM.finishLoop { c with rentActions := a } w q k).1, (RentM.finishLoop { c with rentActions := a } w q k).2.1,
        (RentM.finishLoop { c with rentActions := a } w q k).2.2 + s) := by
  induction q generalizing w k with
  | nil => rfl
  | cons x t ih =>
    obtain ⟨n, b⟩ := x
    have hs : RentM.handleFinished { c with rentActions := a + s } n w =
      RentM.handleFinished { c with rentActions := a } n w := rfl
    simp only [RentM.finishLoop, hs]
    split
    · have e : k + s + 1 = k + 1 + s := by omega
      have e' : (a + s ≤ k + 1 + s) ↔ (a ≤ k + 1) := by omega
      simp only [e, e']
      split
      · rfl
      · exact ih _ _
    · rfl

theorem fLoop_add (i j : Nat) (hj : 0 < j) (w : World) (q : Queue) (k : Nat) (hk : k < i) :
    (RentM.finishLoop { c with rentActions := i + j } w q k).1 =
      (RentM.finishLoop { c with rentActions := j } (RentM.finishLoop { c with rentActions := i } w q k).1
        (RentM.finishLoop { c with rentActions := i } w q k).2.1 0).1 ∧
    (RentM.finishLoop { c with rentActions := i + j } w q k).2.1 =
      (RentM.finishLoop { c with rentActions := j } (RentM.finishLoop { c with rentActions := i } w q k).1
        (RentM.finishLoop { c with rentActions := i } w q k).2.1 0).2.1 := by
  induction q generalizing w k with
  | nil => exact ⟨rfl, rfl⟩
  | cons x t ih =>
    obtain ⟨n, b⟩ := x
    have hs : RentM.handleFinished { c with rentActions := i + j } n w =
      RentM.handleFinished { c with rentActions := i } n w := rfl
    by_cases hb : b ≤ w.now
    · simp only [RentM.finishLoop, if_pos hb, hs]
      have e : ¬ i + j ≤ k + 1 := by omega
      simp only [if_neg e]
      by_cases hi : i ≤ k + 1
      · have hki : k + 1 = i := by omega
        simp only [hki, Nat.le_refl, if_true]
        have := fLoop_shift c j i (RentM.handleFinished { c with rentActions := i } n w).1 t 0
        rw [Nat.zero_add] at this
        have e' : i + j = j + i := Nat.add_comm i j
        simp only [e']
        rw [this]
        exact ⟨rfl, rfl⟩
      · simp only [if_neg hi]
        exact ih _ _ (by omega)
    · have h1 : RentM.finishLoop { c with rentActions := i } w ((n, b) :: t) k = (w, (n, b) :: t, k) := by
        simp only [RentM.finishLoop, if_neg hb]
      rw [h1]
      simp only [RentM.finishLoop, if_neg hb]
      exact ⟨trivial, trivial⟩

theorem fLoop_idle {w : World} {q : Queue} (h : Idle w.now q) (k : Nat) : RentM.finishLoop c w q k = (w, q, k) := by
  cases q with
  | nil => rfl
  | cons x t =>
    have := h x rfl
    simp only [RentM.finishLoop, if_neg this]

theorem sLoop_idle {w : World} {q : Queue} (h : Idle w.now q) (k f : Nat) : RentM.subLoop c w q k f = (w, q, k) := by
  cases f with
  | zero => rfl
  | succ f =>
    cases q with
    | nil => rfl
    | cons x t =>
      have := h x rfl
      simp only [RentM.subLoop, if_neg this]

theorem fLoop_count (w : World) (q : Queue) (k : Nat) : k ≤ (RentM.finishLoop c w q k).2.2 := by
  induction q generalizing w k with
  | nil => exact Nat.le_refl _
  | cons x t ih =>
    obtain ⟨n, b⟩ := x
    simp only [RentM.finishLoop]
    split
    · split
      · exact Nat.le_succ _
      · exact Nat.le_trans (Nat.le_succ _) (ih _ _)
    · exact Nat.le_refl _

/-- nothing counted: nothing was due -/
theorem fLoop_none {w : World} {q : Queue} (h : (RentM.finishLoop c w q 0).2.2 = 0) : Idle w.now q := by
  intro x hx hd
  cases q with
  | nil => cases hx
  | cons y t =>
    obtain rfl : y = x := by simpa using hx
    simp only [RentM.finishLoop, if_pos hd] at h
    split at h
    · simp at h
    · have := fLoop_count c (RentM.handleFinished c y.1 w).1 t (0 + 1)
      omega

/-- only contracts for a fixed time are due -/
theorem hook_fixed {w : World} (hs : Idle w.now w.rent.subQ) (ha : Idle w.now w.rent.availQ) :
    RentM.hook c w = rq w.rent.availQ (RentM.finishLoop c w w.rent.fixedQ 0).2.1 w.rent.subQ
      (RentM.finishLoop c w w.rent.fixedQ 0).1 := by
  have hn := fLoop_now c w.rent.fixedQ w 0
  simp only [RentM.hook]
  rw [sLoop_idle c (hn ▸ hs), fLoop_idle c (hn ▸ ha)]
  split
  · rfl
  · rename_i h0
    have h0 : (RentM.finishLoop c w w.rent.fixedQ 0).2.2 = 0 := by simpa using h0
    rw [fLoop_idle c (fLoop_none c h0)]
    rfl

/-- only offers are due -/
theorem hook_avail {w : World} (hs : Idle w.now w.rent.subQ) (hf : Idle w.now w.rent.fixedQ) :
    RentM.hook c w = rq (RentM.finishLoop c w w.rent.availQ 0).2.1 w.rent.fixedQ w.rent.subQ
      (RentM.finishLoop c w w.rent.availQ 0).1 := by
  simp only [RentM.hook]
  rw [fLoop_idle c hf, sLoop_idle c hs]
  split
  · rfl
  · rename_i h0
    have h0 : (RentM.finishLoop c w w.rent.availQ 0).2.2 = 0 := by simpa using h0
    rw [fLoop_idle c (fLoop_none c h0)]
    rfl

theorem fixed (i j : Nat) (hi : 0 < i) (hj : 0 < j) {w : World} (hs : Idle w.now w.rent.subQ)
    (ha : Idle w.now w.rent.availQ) :
    RentM.hook { c with rentActions := j } (RentM.hook { c with rentActions := i } w) =
      RentM.hook { c with rentActions := i + j } w := by
  rw [hook_fixed { c with rentActions := i } hs ha, hook_fixed { c with rentActions := i + j } hs ha]
  obtain ⟨h1, h2⟩ := fLoop_add c i j hj w w.rent.fixedQ 0 hi
  have hn := fLoop_now { c with rentActions := i } w.rent.fixedQ w 0
  generalize RentM.finishLoop { c with rentActions := i } w w.rent.fixedQ 0 = r at h1 h2 hn
  rw [hook_fixed { c with rentActions := j } (w := rq w.rent.availQ r.2.1 w.rent.subQ r.1) (show Idle r.1.now _ from hn ▸ hs)
    (show Idle r.1.now _ from hn ▸ ha), h1, h2]
  show rq _ (RentM.finishLoop _ (rq _ _ _ _) r.2.1 0).2.1 _ (RentM.finishLoop _ (rq _ _ _ _) r.2.1 0).1 = _
  rw [fLoop_rq]
  rfl

theorem avail (i j : Nat) (hi : 0 < i) (hj : 0 < j) {w : World} (hs : Idle w.now w.rent.subQ)
    (hf : Idle w.now w.rent.fixedQ) :
    RentM.hook { c with rentActions := j } (RentM.hook { c with rentActions := i } w) =
      RentM.hook { c with rentActions := i + j } w := by
  rw [hook_avail { c with rentActions := i } hs hf, hook_avail { c with rentActions := i + j } hs hf]
  obtain ⟨h1, h2⟩ := fLoop_add c i j hj w w.rent.availQ 0 hi
  have hn := fLoop_now { c with rentActions := i } w.rent.availQ w 0
  generalize RentM.finishLoop { c with rentActions := i } w w.rent.availQ 0 = r at h1 h2 hn
  rw [hook_avail { c with rentActions := j } (w := rq r.2.1 w.rent.fixedQ w.rent.subQ r.1) (show Idle r.1.now _ from hn ▸ hs)
    (show Idle r.1.now _ from hn ▸ hf), h1, h2]
  show rq (RentM.finishLoop _ (rq _ _ _ _) r.2.1 0).2.1 _ _ (RentM.finishLoop _ (rq _ _ _ _) r.2.1 0).1 = _
  rw [fLoop_rq]
  rfl

end Portion

import Verif.Props.OrderSpec
import Verif.Proofs.RentLive
import Verif.Proofs.AucHook
import Verif.Proofs.TrStep
/-
The order of entries in the schedules.
-/
open Spec

variable {c : Cfg} {w w' : World} {a : AccountId} {x y : NFTId × Block}

namespace Queue

theorem WF.nodup {q : Queue} (h : q.WF) : q.Nodup := by
  have := h.nd
  rw [ids, List.Nodup, List.pairwise_map] at this
  exact this.imp fun h e => h (by rw [e])

theorem Ahead_tail {z} {t : Queue} (h : WF (z :: t)) (hx : x ∈ t) (ha : Ahead (z :: t) x y) : Ahead t x y := by
  cases ha with
  | cons _ h' => exact h'
  | cons_cons _ h' => exact absurd hx (List.nodup_cons.1 h.nodup).1

theorem Ahead_drop {q : Queue} (h : q.WF) (j : Nat) (hx : x ∈ q.drop j) (ha : Ahead q x y) : Ahead (q.drop j) x y := by
  induction j generalizing q with
  | zero => exact ha
  | succ j ih =>
    cases q with
    | nil => simp at hx
    | cons z t =>
      rw [List.drop_succ_cons] at hx ⊢
      exact ih h.tail hx (Ahead_tail h (List.mem_of_mem_drop hx) ha)

theorem remove_filter {q : Queue} (h : q.WF) (n : NFTId) : q.remove n = q.filter (fun z => decide (z.1 ≠ n)) := by
  induction q with
  | nil => rfl
  | cons z t ih =>
    obtain ⟨m, b⟩ := z
    simp only [Queue.remove]
    split
    · rename_i hm
      subst hm
      rw [List.filter_cons_of_neg (by simp)]
      refine (List.filter_eq_self.2 fun z hz => ?_).symm
      have := h.head
      simp only [ne_eq, decide_not, Bool.not_eq_eq_eq_not, Bool.not_true, decide_eq_false_iff_not]
      rintro rfl
      exact this (mem_ids.2 ⟨z.2, hz⟩)
    · rename_i hm
      rw [List.filter_cons_of_pos (by simpa using hm), ih h.tail]

theorem Ahead_remove {q : Queue} (h : q.WF) {n} (hx : x.1 ≠ n) (hy : y.1 ≠ n) (ha : Ahead q x y) :
    Ahead (q.remove n) x y := by
  rw [remove_filter h]
  have := List.Sublist.filter (fun z => decide (z.1 ≠ n)) ha
  unfold Ahead
  simpa [hx, hy] using this

theorem sublist_ins (n b) (q : Queue) : List.Sublist q (ins n b q) := by
  induction q with
  | nil => exact List.nil_sublist _
  | cons z t ih =>
    obtain ⟨m, e⟩ := z
    simp only [ins]
    split
    · exact List.sublist_cons_self ..
    · exact ih.cons_cons _

theorem Ahead_ins {q : Queue} (n b) (ha : Ahead q x y) : Ahead (ins n b q) x y := ha.trans (sublist_ins n b q)

/-- a new entry comes behind all that are due not later -/
theorem new_behind {q : Queue} (h : q.WF) {n b} (hx : x ∈ q) (hb : x.2 ≤ b) : Ahead (ins n b q) x (n, b) := by
  induction q with
  | nil => simp at hx
  | cons z t ih =>
    obtain ⟨m, e⟩ := z
    simp only [ins]
    split
    · rename_i hgt
      exfalso
      rcases List.mem_cons.1 hx with rfl | hx
      · simp only at hb; omega
      · have : e ≤ x.2 := (List.pairwise_cons.1 h.sorted).1 x hx
        omega
    · rcases List.mem_cons.1 hx with rfl | hx
      · refine List.Sublist.cons_cons _ ?_
        rw [List.singleton_sublist]
        exact mem_ins.2 (.inl rfl)
      · exact (ih h.tail hx).cons _

/-- `y` does not overtake `x` -/
def Before (q : Queue) (x y : NFTId × Block) : Prop := y ∈ q → Ahead q x y

theorem Before.tail {z} {t : Queue} (h : WF (z :: t)) (hx : x ∈ t) (hb : Before (z :: t) x y) : Before t x y :=
  fun hy => Ahead_tail h hx (hb (List.mem_cons_of_mem _ hy))

theorem Before.drop {q : Queue} (h : q.WF) (j : Nat) (hx : x ∈ q.drop j) (hb : Before q x y) : Before (q.drop j) x y :=
  fun hy => Ahead_drop h j hx (hb (List.mem_of_mem_drop hy))

theorem Before.remove {q : Queue} (h : q.WF) {n} (hx : x ∈ q.remove n) (hb : Before q x y) : Before (q.remove n) x y := by
  intro hy
  rw [mem_remove h] at hx hy
  exact Ahead_remove h hx.2 hy.2 (hb hy.1)

theorem Before.ins {q : Queue} (h : q.WF) (n b) (hx : x ∈ q) (hxy : x.2 ≤ y.2) (hb : Before q x y) :
    Before (Queue.ins n b q) x y := by
  intro hy
  rcases mem_ins.1 hy with rfl | hy
  · exact new_behind h hx hxy
  · exact Ahead_ins n b (hb hy)

theorem Before.update {q q' : Queue} (h : q.WF) {lim n b} (hu : q.update lim n b = .ok q') (hx : x ∈ q) (hx' : x ∈ q')
    (hne : x ≠ (n, b)) (hxy : x.2 ≤ y.2) (hb : Before q x y) : Before q' x y := by
  rcases update_ok hu with ⟨_, rfl⟩ | ⟨_, rfl⟩
  · exact hb
  · have hm : x ∈ q.remove n := (mem_ins.1 hx').resolve_left hne
    exact Before.ins h.remove n b hm hxy (hb.remove h hm)

end Queue

namespace RentM

/-- what holds of a queue and stays when its front is taken or something is put in holds after the subscription loop,
as long as `x` is in the queue -/
theorem subLoop_ind {P : Queue → Prop} (ht : ∀ z t, Queue.WF (z :: t) → x ∈ t → P (z :: t) → P t)
    (hin : ∀ n b q, Queue.WF q → x ∈ q → P q → P (Queue.ins n b q)) (fuel : Nat) (w : World) (q : Queue) (k : Nat) {F A}
    (h : RInv c (setQ w F q A)) (hbal : BalInv c w.bal) (hx : x ∈ q) (hx' : x ∈ (subLoop c w q k fuel).2.1) (hp : P q) :
    P (subLoop c w q k fuel).2.1 := by
  induction fuel generalizing w q k with
  | zero => exact hp
  | succ f ih =>
    have hwf : q.WF := h.q.wfS
    unfold subLoop at hx' ⊢
    cases q with
    | nil => exact hp
    | cons z t =>
      obtain ⟨m, e⟩ := z
      dsimp only at hx' ⊢
      split
      · rename_i he
        rw [if_pos he] at hx'
        obtain ⟨h1, h2, h3, h4⟩ := stepS (off := fun _ _ => True) h hbal
        have hlater : ∀ e', (m, e') ∈ (subOne c w m t).2 → w.now < e' := by
          obtain ⟨k0, _, _, hk0, _⟩ := h.q.inS m e (List.mem_cons_self ..)
          have hpos := (h.q.con m k0 hk0).period.1
          have hnt : m ∉ Queue.ids t := hwf.head
          intro e' he'
          rcases subOne_queue (c := c) w m t with e1 | ⟨k1, hk1, e1⟩
          · rw [e1] at he'; exact absurd (Queue.mem_ids.2 ⟨e', he'⟩) hnt
          · rw [e1] at he'
            rcases Queue.mem_ins.1 he' with he' | he'
            · simp only [Prod.mk.injEq] at he'
              have : k1 = k0 := by
                have : w.rent.contracts.get m = some k0 := hk0
                rw [hk1] at this; simpa using this
              subst this; omega
            · exact absurd (Queue.mem_ids.2 ⟨e', he'⟩) hnt
        have hxt : x ∈ t := by
          rcases List.mem_cons.1 hx with rfl | hx
          · exfalso
            have : w.now < e := by
              split at hx'
              · exact hlater _ hx'
              · have := subLoop_later f (subOne c w m t).1 (subOne c w m t).2 (k + 1) h1 h2 (n := m)
                  (by rw [subOne_now]; exact hlater) _ hx'
                rwa [subOne_now] at this
            omega
          · exact hx
        have hpt := ht _ _ hwf hxt hp
        have hp1 : P (subOne c w m t).2 ∧ x ∈ (subOne c w m t).2 := by
          rcases subOne_queue (c := c) w m t with e1 | ⟨k1, _, e1⟩
          · rw [e1]; exact ⟨hpt, hxt⟩
          · rw [e1]; exact ⟨hin _ _ _ hwf.tail hxt hpt, Queue.mem_ins.2 (.inr hxt)⟩
        split
        · exact hp1.1
        · rename_i hk
          rw [if_neg hk] at hx'
          exact ih _ _ _ h1 h2 hp1.2 hx' hp1.1
      · exact hp

theorem hook_sub_ind {P : Queue → Prop} (ht : ∀ z t, Queue.WF (z :: t) → x ∈ t → P (z :: t) → P t)
    (hin : ∀ n b q, Queue.WF q → x ∈ q → P q → P (Queue.ins n b q)) (h : RInv c w) (hbal : BalInv c w.bal)
    (hx : x ∈ w.rent.subQ) (hx' : x ∈ (hook c w).rent.subQ) (hp : P w.rent.subQ) : P (hook c w).rent.subQ := by
  have he := hook_eq (c := c) w
  dsimp only at he
  rw [he] at hx' ⊢
  have f1 := (loopF (off := fun _ _ => True) w.rent.fixedQ w 0 (S := w.rent.subQ)
    (A := w.rent.availQ) h hbal).1
  have fb := hbal.pays (finishLoop_pays w.rent.fixedQ w 0)
  exact subLoop_ind ht hin _ _ w.rent.subQ _ f1 fb hx hx' hp

end RentM

/-- the hook takes the schedules from the front: what is ahead of an entry that is left is ahead of what is behind it -/
theorem hook_ind {P : Queue → Prop} (ht : ∀ z t, Queue.WF (z :: t) → x ∈ t → P (z :: t) → P t)
    (hin : ∀ n b q, Queue.WF q → x ∈ q → P q → P (Queue.ins n b q)) (hc : c.Ok) (hr : Reach c w) (k : Work)
    (hx : x ∈ schedule w k) (hx' : x ∈ schedule (step c w (hookFor k)) k) (hp : P (schedule w k)) :
    P (schedule (step c w (hookFor k)) k) := by
  have hd : ∀ (q : Queue) (j : Nat), q.WF → x ∈ q.drop j → P q → P (q.drop j) := by
    intro q j
    induction j generalizing q with
    | zero => exact fun _ _ h => h
    | succ j ih =>
      intro hq hx hp
      cases q with
      | nil => simp at hx
      | cons z t =>
        rw [List.drop_succ_cons] at hx ⊢
        exact ih t hq.tail hx (ht _ _ hq (List.mem_of_mem_drop hx) hp)
  have hi := (hr.inv hc).rent
  cases k with
  | auction =>
    obtain ⟨j, h1, _⟩ := AucM.hookLoop_drop (c := c) w.auc.deadlines w 0
    have e : schedule (step c w (hookFor .auction)) .auction = w.auc.deadlines.drop j := h1
    rw [e] at hx' ⊢
    exact hd _ _ (hr.auc hc).wf hx' hp
  | fixed =>
    obtain ⟨j, h1, _⟩ := RentM.finishLoop_drop (c := c) w.rent.fixedQ w 0
    have e : schedule (step c w (hookFor .fixed)) .fixed = w.rent.fixedQ.drop j :=
      (RentM.hook_fixedQ w).trans h1
    rw [e] at hx' ⊢
    exact hd _ _ hi.q.wfF hx' hp
  | subscription => exact RentM.hook_sub_ind ht hin hi hr.micro.balInv hx hx' hp
  | unused =>
    obtain ⟨w1, i, _, h2⟩ := RentM.hook_availQ (c := c) w
    obtain ⟨j, h1, _⟩ := RentM.finishLoop_drop (c := c) w.rent.availQ w1 i
    have e : schedule (step c w (hookFor .unused)) .unused = w.rent.availQ.drop j := h2.trans h1
    rw [e] at hx' ⊢
    exact hd _ _ hi.q.wfA hx' hp
  | transmission =>
    have e : schedule (step c w (hookFor .transmission)) .transmission =
        w.tr.queue.drop (TrM.served c w).length := (TrM.hook_exact (hr.inv hc).tr (hr.inv hc).good).2
    rw [e] at hx' ⊢
    exact hd _ _ (hr.inv hc).tr.wf hx' hp

namespace TrM

/-- what a call does to the queue -/
theorem call_queue {z : Call} (h : call c w a z = .ok w') :
    w'.tr.queue = w.tr.queue ∨ (∃ n, w'.tr.queue = w.tr.queue.remove n) ∨
    (∃ n b, w'.tr.queue = Queue.ins n b w.tr.queue) ∨
    ∃ n b, z = .resetTimer n b ∧ w.tr.queue.update c.trLimit n b = .ok w'.tr.queue := by
  have enq : ∀ {q q' : Queue} {n : NFTId} {o : Option Block}, enqueue c q n o = .ok q' →
      q' = q ∨ ∃ n b, q' = Queue.ins n b q := by
    intro q q' n o h
    cases o with
    | none => simp only [enqueue] at h; inv_ok at h; exact .inl h.symm
    | some b =>
      simp only [enqueue] at h; inv_ok at h
      exact .inr ⟨_, _, (Queue.insert_some h.2).2⟩
  have trm : ∀ {u u' : World} {n}, transmit u n = .ok u' → u'.tr.queue = u.tr.queue := by
    intro u u' n h
    simp only [transmit] at h; inv_ok at h
    obtain ⟨_, _, _, _, rfl⟩ := h
    rfl
  cases z with
  | set n r p k =>
    simp only [call, set] at h; inv_ok at h
    obtain ⟨d, q, b, _, _, _, _, _, _, _, _, _, _, _, _, _, _, _, _, _, _, hq, _, rfl⟩ := h
    rcases enq hq with e | e
    · exact .inl e
    · exact .inr (.inr (.inl e))
  | remove n =>
    simp only [call, remove] at h; inv_ok at h
    obtain ⟨d, t, _, _, _, _, _, rfl⟩ := h
    dsimp only
    cases kind t.protocol <;> first | exact .inl rfl | exact .inr (.inl ⟨n, rfl⟩)
  | resetTimer n b =>
    simp only [call, resetTimer] at h; inv_ok at h
    obtain ⟨d, t, q, _, _, _, _, _, _, _, hq, rfl⟩ := h
    exact .inr (.inr (.inr ⟨n, b, rfl, hq⟩))
  | addConsent n =>
    simp only [call, addConsent] at h; inv_ok at h
    obtain ⟨d, t, z, _, _, _, _, _, _, _, _, h⟩ := h
    unfold consentEffect at h
    split at h
    · inv_ok at h; subst h; exact .inl rfl
    · split at h
      · split at h
        · inv_ok at h
          obtain ⟨w1, h1, rfl⟩ := h
          have := trm h1; exact .inl this
        · inv_ok at h
          obtain ⟨q, hq, rfl⟩ := h
          rcases enq hq with e | e
          · exact .inl e
          · exact .inr (.inr (.inl e))
      · inv_ok at h
        obtain ⟨w1, h1, rfl⟩ := h
        have := trm h1; exact .inl this

end TrM

/-- No operation lets `y` overtake `x`, unless it puts `x` into the schedule anew. -/
theorem step_before (hc : c.Ok) (hr : Reach c w) (o : Op) (ho : o.Ok c) (k : Work) (hx : x ∈ schedule w k)
    (hx' : x ∈ schedule (step c w o) k) (hxy : x.2 ≤ y.2) (hrq : ¬ Requeues x o)
    (hb : Queue.Before (schedule w k) x y) : Queue.Before (schedule (step c w o) k) x y := by
  by_cases hh : o = hookFor k
  · subst hh
    exact hook_ind (P := fun q => Queue.Before q x y) (fun _ _ h hx => Queue.Before.tail h hx)
      (fun n b _ h hx hb => hb.ins h n b hx hxy) hc hr k hx hx' hb
  have hi := (hr.inv hc).rent
  cases k with
  | auction =>
    have wf := (hr.auc hc).wf
    simp only [schedule] at hx hx' hb ⊢
    rcases step_auc_case w o ho with ⟨a, z, rfl, _, hd⟩ | ⟨rfl, _⟩ | e
    · generalize step c w _ = w' at hd hx' ⊢
      cases hd with
      | create _ _ _ _ _ _ _ _ _ _ _ _ hq =>
        obtain ⟨_, rfl⟩ := Queue.insert_some hq
        exact hb.ins wf _ _ hx hxy
      | cancel => exact hb.remove wf hx'
      | end_ => exact hb.remove wf hx'
      | @addBid n v z b dr l q hz _ _ _ _ _ _ hq =>
        rw [AucM.extend_eq] at hq
        split at hq
        · refine hb.update wf hq hx hx' ?_ hxy
          rintro rfl
          obtain ⟨z', hz', hf⟩ := (hr.auc hc).inQ _ _ hx
          obtain rfl : z = z' := by rw [hz] at hz'; simpa using hz'
          rename_i hg
          dsimp only at hf hg ⊢
          omega
        · simp only [AucM.updateDeadline] at hq
          cases hq
          exact hb
      | removeBid => exact hb
      | buyItNow => exact hb.remove wf hx'
      | claim => exact hb
    · exact absurd rfl hh
    · rw [e]; exact hb
  | fixed =>
    have wf := hi.q.wfF
    simp only [schedule] at hx hx' hb ⊢
    rcases step_rent_case hc hr o ho with ⟨a, z, rfl, _, hd⟩ | ⟨rfl, _⟩ | e
    · generalize step c w _ = w' at hd hx' ⊢
      cases hd with
      | create h2 =>
        obtain ⟨_, _, _, _, _, _, _, _, _, _, _, _, _, _, _, _, _, _, _, _, _, rfl⟩ := RentM.create_ok h2
        exact hb
      | cancel => exact hb
      | revoke h2 =>
        obtain ⟨k, r, d, b0, b1, b2, hk, _, _, _, _, _, _, _, _, rfl⟩ := RentM.revoke_ok h2
        simp only [RentM.removeKind] at hx' ⊢
        cases hdu : k.duration with
        | fixed => simp only [hdu] at hx' ⊢; exact hb.remove wf hx'
        | sub => exact hb
      | @start m k r _ _ hk hs h2 =>
        obtain ⟨b1, b2, q, _, _, _, _, hq, rfl⟩ := h2.out
        simp only [RentM.insertKind] at hq
        cases hdu : k.duration with
        | fixed d =>
          simp only [hdu, Option.map_eq_some_iff] at hq
          obtain ⟨q', hq', rfl⟩ := hq
          obtain ⟨_, rfl⟩ := Queue.insert_some hq'
          exact hb.ins wf _ _ hx hxy
        | sub =>
          simp only [hdu, Option.map_eq_some_iff] at hq
          obtain ⟨q', hq', rfl⟩ := hq
          exact hb
      | makeOffer => exact hb
      | retractOffer => exact hb
      | changeTerms => exact hb
      | acceptTerms => exact hb
    · exact absurd rfl hh
    · rw [e]; exact hb
  | subscription =>
    have wf := hi.q.wfS
    simp only [schedule] at hx hx' hb ⊢
    rcases step_rent_case hc hr o ho with ⟨a, z, rfl, _, hd⟩ | ⟨rfl, _⟩ | e
    · generalize step c w _ = w' at hd hx' ⊢
      cases hd with
      | create h2 =>
        obtain ⟨_, _, _, _, _, _, _, _, _, _, _, _, _, _, _, _, _, _, _, _, _, rfl⟩ := RentM.create_ok h2
        exact hb
      | cancel => exact hb
      | revoke h2 =>
        obtain ⟨k, r, d, b0, b1, b2, hk, _, _, _, _, _, _, _, _, rfl⟩ := RentM.revoke_ok h2
        simp only [RentM.removeKind] at hx' ⊢
        cases hdu : k.duration with
        | fixed => exact hb
        | sub => simp only [hdu] at hx' ⊢; exact hb.remove wf hx'
      | @start m k r _ _ hk hs h2 =>
        obtain ⟨b1, b2, q, _, _, _, _, hq, rfl⟩ := h2.out
        simp only [RentM.insertKind] at hq
        cases hdu : k.duration with
        | fixed d =>
          simp only [hdu, Option.map_eq_some_iff] at hq
          obtain ⟨q', hq', rfl⟩ := hq
          exact hb
        | sub =>
          simp only [hdu, Option.map_eq_some_iff] at hq
          obtain ⟨q', hq', rfl⟩ := hq
          obtain ⟨_, rfl⟩ := Queue.insert_some hq'
          exact hb.ins wf _ _ hx hxy
      | makeOffer => exact hb
      | retractOffer => exact hb
      | changeTerms => exact hb
      | acceptTerms => exact hb
    · exact absurd rfl hh
    · rw [e]; exact hb
  | unused =>
    have wf := hi.q.wfA
    simp only [schedule] at hx hx' hb ⊢
    rcases step_rent_case hc hr o ho with ⟨a, z, rfl, _, hd⟩ | ⟨rfl, _⟩ | e
    · generalize step c w _ = w' at hd hx' ⊢
      cases hd with
      | create h2 =>
        obtain ⟨_, _, _, _, _, _, _, _, _, _, _, _, _, _, _, _, _, _, _, _, hq, rfl⟩ := RentM.create_ok h2
        obtain ⟨_, rfl⟩ := Queue.insert_some hq
        exact hb.ins wf _ _ hx hxy
      | cancel => exact hb.remove wf hx'
      | revoke h2 =>
        obtain ⟨k, r, d, b0, b1, b2, hk, _, _, _, _, _, _, _, _, rfl⟩ := RentM.revoke_ok h2
        simp only [RentM.removeKind]
        cases k.duration <;> exact hb
      | @start m k r _ _ hk hs h2 =>
        obtain ⟨F, S, e⟩ := h2.rent
        rw [e] at hx' ⊢
        exact hb.remove wf hx'
      | makeOffer => exact hb
      | retractOffer => exact hb
      | changeTerms => exact hb
      | acceptTerms => exact hb
    · exact absurd rfl hh
    · rw [e]; exact hb
  | transmission =>
    have wf := (hr.inv hc).tr.wf
    simp only [schedule] at hx hx' hb ⊢
    rcases step_tr_case hc hr o ho with ⟨a, z, rfl, _, hd⟩ | rfl | ⟨_, _, e, _⟩
    · generalize step c w _ = w' at hd hx' ⊢
      rcases TrM.call_queue hd with e | ⟨n, e⟩ | ⟨n, b, e⟩ | ⟨n, b, rfl, e⟩
      · rw [e]; exact hb
      · rw [e] at hx' ⊢; exact hb.remove wf hx'
      · rw [e] at hx' ⊢; exact hb.ins wf _ _ hx hxy
      · exact hb.update wf e hx hx' (fun h => hrq ⟨a, by rw [h]⟩) hxy
    · exact absurd rfl hh
    · rw [e]; exact hb

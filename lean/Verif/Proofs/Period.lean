import Verif.Props.PeriodSpec
import Verif.Proofs.Cash
/-
Events tell until when rents are paid, and the hook waits until then.
-/
open Spec

variable {c : Cfg} {w w' : World} {a : AccountId}

/-- the hook's next turn of every running contract is `d` -/
def RentM.Planned (F S : Queue) (d : NFTId → Block) : Prop := ∀ n b, (n, b) ∈ F ∨ (n, b) ∈ S → d n = b

/-- an event that renews or ends no contract too early -/
def Spec.InTime (d : NFTId → Block) (b : Block) (e : Event) : Prop :=
  ∀ n, e = .periodStarted n ∨ e = .contractEnded n → d n ≤ b

/-- all events of a series are in time -/
def Spec.AllInTime (c : Cfg) (v : View) (d : NFTId → Block) : List (Block × Event) → Prop
  | [] => True
  | (b, e) :: l => InTime d b e ∧ AllInTime c (see c.rentPot c.grace b v e) (paidNext b v d e) l

theorem Spec.paidUntil_append (v : View) (d : NFTId → Block) (l l' : List (Block × Event)) :
    paidUntil c v d (l ++ l') = paidUntil c (books c.rentPot c.grace v l) (paidUntil c v d l) l' := by
  induction l generalizing v d with
  | nil => rfl
  | cons x l ih => obtain ⟨b, e⟩ := x; exact ih _ _

theorem Spec.AllInTime.append {v : View} {d : NFTId → Block} {l l' : List (Block × Event)} (h : AllInTime c v d l)
    (h' : AllInTime c (books c.rentPot c.grace v l) (paidUntil c v d l) l') : AllInTime c v d (l ++ l') := by
  induction l generalizing v d with
  | nil => exact h'
  | cons x l ih => obtain ⟨b, e⟩ := x; exact ⟨h.1, ih h.2 h'⟩

theorem Spec.AllInTime.split {v : View} {d : NFTId → Block} {l l' : List (Block × Event)} {b : Block} {e : Event}
    (h : AllInTime c v d (l ++ (b, e) :: l')) : InTime (paidUntil c v d l) b e := by
  induction l generalizing v d with
  | nil => exact h.1
  | cons x l ih => obtain ⟨b, e⟩ := x; exact ih h.2

/-- events of one block -/
abbrev Spec.onTimeAt (c : Cfg) (now : Block) (v : View) (d : NFTId → Block) (l : List Event) : Prop :=
  AllInTime c v d (l.map fun e => (now, e))
abbrev Spec.paidAt (c : Cfg) (now : Block) (v : View) (d : NFTId → Block) (l : List Event) : NFTId → Block :=
  paidUntil c v d (l.map fun e => (now, e))

/-- events that are not about rent being paid or used up -/
def Spec.Plain : Event → Bool
  | .contractStarted .. => false
  | .periodStarted _ => false
  | .contractEnded _ => false
  | _ => true

theorem Spec.Plain.out {l : List Event} (h : ∀ e ∈ l, Plain e = true) (now : Block) (v : View) (d : NFTId → Block) :
    onTimeAt c now v d l ∧ paidAt c now v d l = d := by
  induction l generalizing v d with
  | nil => exact ⟨trivial, rfl⟩
  | cons e l ih =>
    have he := h e (by simp)
    have e1 : paidNext now v d e = d := by
      cases e <;> first | rfl | simp [Plain] at he
    have e2 : InTime d now e := by
      rintro n (rfl | rfl) <;> simp [Plain] at he
    obtain ⟨i1, i2⟩ := ih (fun x hx => h x (by simp [hx])) (see c.rentPot c.grace now v e) d
    simp only [onTimeAt, paidAt, List.map_cons, AllInTime, paidUntil, e1]
    exact ⟨⟨e2, i1⟩, i2⟩

/-- what is to be shown of an operation -/
def Spec.Paced (c : Cfg) (w w' : World) (l : List Event) : Prop :=
  ∀ d, RentM.Planned w.rent.fixedQ w.rent.subQ d →
    onTimeAt c w.now (truth w) d l ∧
    RentM.Planned w'.rent.fixedQ w'.rent.subQ (paidAt c w.now (truth w) d l)

theorem Spec.Paced.plain {l : List Event} (h : ∀ e ∈ l, Plain e = true) (hr : w'.rent = w.rent) : Paced c w w' l := by
  intro d hd
  obtain ⟨h1, h2⟩ := Plain.out (c := c) h w.now (truth w) d
  rw [h2, hr]
  exact ⟨h1, hd⟩

namespace RentM

theorem Planned.sub {F S F' S' : Queue} {d} (h : Planned F S d) (hf : ∀ x ∈ F', x ∈ F) (hs : ∀ x ∈ S', x ∈ S) :
    Planned F' S' d := fun n b hx => h n b (hx.imp (hf _) (hs _))

theorem finishLoop_mem (q : Queue) (w : World) (i : Nat) : ∀ x ∈ (finishLoop c w q i).2.1, x ∈ q := by
  induction q generalizing w i with
  | nil => simp [finishLoop]
  | cons y q ih =>
    obtain ⟨n, b⟩ := y
    simp only [finishLoop]
    split
    · split
      · exact fun x hx => List.mem_cons_of_mem _ hx
      · exact fun x hx => List.mem_cons_of_mem _ (ih _ _ x hx)
    · exact fun x hx => hx

theorem loopF_paced (q : Queue) (w : World) (i : Nat) (v : View) {S d} (hd : Planned q S d) :
    onTimeAt c w.now v d (finishEmit c .contractEnded w q i) ∧
    paidAt c w.now v d (finishEmit c .contractEnded w q i) = d := by
  induction q generalizing w i v with
  | nil => exact ⟨trivial, rfl⟩
  | cons x q ih =>
    obtain ⟨n, b⟩ := x
    simp only [finishEmit]
    split
    · rename_i hb
      have e : InTime d w.now (.contractEnded n) := by
        rintro m (h | h)
        · cases h
        · cases h; rw [hd n b (.inl (by simp))]; exact hb
      split
      · exact ⟨⟨e, trivial⟩, rfl⟩
      · obtain ⟨i1, i2⟩ := ih (handleFinished c n w).1 (i + 1) (see c.rentPot c.grace w.now v (.contractEnded n))
          (hd.sub (fun x hx => List.mem_cons_of_mem _ hx) fun x hx => hx)
        rw [handleFinished_now] at i1 i2
        exact ⟨⟨e, i1⟩, i2⟩
    · exact ⟨trivial, rfl⟩

theorem finishEmit_plain {e : NFTId → Event} (he : ∀ n, Plain (e n) = true) (q : Queue) (w : World) (i : Nat) :
    ∀ x ∈ finishEmit c e w q i, Plain x = true := by
  induction q generalizing w i with
  | nil => simp [finishEmit]
  | cons y q ih =>
    obtain ⟨n, b⟩ := y
    simp only [finishEmit]
    split
    · intro x hx
      rcases List.mem_cons.1 hx with rfl | hx
      · exact he n
      · split at hx
        · simp at hx
        · exact ih _ _ x hx
    · simp

theorem sub_paced {n b t F A d} (h : RInv c (setQ w F ((n, b) :: t) A)) (hd : Planned F ((n, b) :: t) d)
    (hb : b ≤ w.now) :
    InTime d w.now (subEvent c w n) ∧
    Planned F (subOne c w n t).2 (paidNext w.now (truth w) d (subEvent c w n)) := by
  obtain ⟨k, s, u, hk, hr, hs, hu, _⟩ := h.q.inS n b (List.mem_cons_self ..)
  have hk : w.rent.contracts.get n = some k := hk
  have ek : (truth w).contract n = some k := hk
  have hn : n ∉ Queue.ids t := Queue.WF.head h.q.wfS
  have hf : n ∉ Queue.ids F := h.q.notF (n := n) (k := k) hk (.inr ⟨u, hu⟩)
  refine ⟨?_, ?_⟩
  · unfold subEvent
    split <;> rintro m (e | e) <;> cases e <;> rw [hd n b (.inr (by simp))] <;> exact hb
  · unfold subOne subEvent
    rcases e : handleSub c w n with ⟨w1, _ | b1⟩
    · exact hd.sub (fun x hx => hx) fun x hx => List.mem_cons_of_mem _ hx
    · obtain ⟨k', r, fee, bal, hk', hr, hf', ht, he, hbl, rfl, rfl⟩ := handleSub_some e
      rw [hk] at hk'; cases hk'
      simp only [Option.isSome, if_true, paidNext, rentPaid, ek, Option.elim]
      intro m x hx
      have ht : term k = period k.duration := by simp [term, period, hu]
      rcases hx with hx | hx
      · have : m ≠ n := fun e => hf (Queue.mem_ids.2 ⟨x, e ▸ hx⟩)
        simp only [if_neg this]
        exact hd m x (.inl hx)
      · have hx : (m, x) = (n, w.now + period k.duration) ∨ (m, x) ∈ t := by
          cases hi : Queue.insert c.rentLimit t n (w.now + period k.duration) with
          | none => rw [hi] at hx; exact .inr hx
          | some q =>
            rw [hi] at hx
            obtain rfl := (Queue.insert_some hi).2
            exact Queue.mem_ins.1 hx
        rcases hx with hx | hx
        · cases hx; simp only [if_true, ht]
        · have : m ≠ n := fun e => hn (Queue.mem_ids.2 ⟨x, e ▸ hx⟩)
          simp only [if_neg this]
          exact hd m x (.inr (List.mem_cons_of_mem _ hx))

theorem loopS_paced (fuel : Nat) (w : World) (q : Queue) (i : Nat) {F A d} (h : RInv c (setQ w F q A))
    (hb : BalInv c w.bal) (hd : Planned F q d) :
    onTimeAt c w.now (truth w) d (subEmit c w q i fuel) ∧
    Planned F (subLoop c w q i fuel).2.1 (paidAt c w.now (truth w) d (subEmit c w q i fuel)) := by
  induction fuel generalizing w q i d with
  | zero => exact ⟨trivial, hd⟩
  | succ f ih =>
    unfold subLoop subEmit
    cases q with
    | nil => exact ⟨trivial, hd⟩
    | cons x q =>
      obtain ⟨n, b⟩ := x
      obtain ⟨h1, h2, h3, _⟩ := stepS (off := fun _ _ => True) h hb
      have e' := sub_seen h hb
      dsimp only
      split
      · rename_i hn
        obtain ⟨p1, p2⟩ := sub_paced h hd hn
        split
        · exact ⟨⟨p1, trivial⟩, p2⟩
        · obtain ⟨i1, i2⟩ := ih _ _ (i + 1) h1 h2 p2
          rw [h3, e'] at i1 i2
          exact ⟨⟨p1, i1⟩, i2⟩
      · exact ⟨trivial, hd⟩

theorem hook_paced (h : RInv c w) (hb : BalInv c w.bal) : Paced c w (hook c w) (hookEmit c w) := by
  intro d hd
  have he := hook_eq (c := c) w
  dsimp only at he
  rw [he]
  have f0 := loopF_seen w.rent.fixedQ w 0 (S := w.rent.subQ) (A := w.rent.availQ) h hb
  obtain ⟨p0, q0⟩ := loopF_paced (c := c) w.rent.fixedQ w 0 (truth w) hd
  obtain ⟨f1, f2⟩ := loopF (off := fun _ _ => True) w.rent.fixedQ w 0 (S := w.rent.subQ) (A := w.rent.availQ) h hb
  have fb := hb.pays (finishLoop_pays w.rent.fixedQ w 0)
  have fn := finishLoop_now (c := c) w.rent.fixedQ w 0
  obtain ⟨p1, q1⟩ := loopS_paced (max 1 (c.rentActions - (finishLoop c w w.rent.fixedQ 0).2.2)) _ w.rent.subQ
    (finishLoop c w w.rent.fixedQ 0).2.2 f1 fb (hd.sub (finishLoop_mem _ _ _) fun x hx => hx)
  rw [fn, f0] at p1 q1
  have m3 := Plain.out (c := c) (finishEmit_plain (c := c) (e := .contractExpired) (fun _ => rfl) w.rent.availQ
    (subLoop c (finishLoop c w w.rent.fixedQ 0).1 w.rent.subQ (finishLoop c w w.rent.fixedQ 0).2.2
      (max 1 (c.rentActions - (finishLoop c w w.rent.fixedQ 0).2.2))).1
    (subLoop c (finishLoop c w w.rent.fixedQ 0).1 w.rent.subQ (finishLoop c w w.rent.fixedQ 0).2.2
      (max 1 (c.rentActions - (finishLoop c w w.rent.fixedQ 0).2.2))).2.2) w.now
  simp only [hookEmit, onTimeAt, paidAt, List.map_append]
  constructor
  · refine .append (.append p0 ?_) (m3 _ _).1
    unfold paidAt at q0
    rw [q0, books_map]
    exact p1
  · unfold paidAt at q0 m3
    rw [paidUntil_append, paidUntil_append, q0, (m3 _ _).2, books_map]
    exact q1

theorem start_paced (hi : RInv c w) {n k r} (hk : w.rent.contracts.get n = some k) (hn : k.rentee = none)
    (h : startContract c w n k r = .ok w') : Paced c w w' [.contractStarted n r] := by
  intro d hd
  have ek : (truth w).contract n = some k := hk
  obtain ⟨w1, q, h1, h2, rfl⟩ := startContract_ok h
  refine ⟨⟨by rintro m (e | e) <;> exact (Event.noConfusion e), trivial⟩, ?_⟩
  simp only [paidAt, List.map_cons, List.map_nil, paidUntil, paidNext, rentPaid, ek, Option.elim]
  have hS : n ∉ w.rent.subQ.ids := hi.q.notS hk (.inl hn)
  have hF : n ∉ w.rent.fixedQ.ids := hi.q.notF hk (.inl hn)
  have old : ∀ m x, (m, x) ∈ w.rent.fixedQ ∨ (m, x) ∈ w.rent.subQ →
      (if m = n then w.now + term k else d m) = x := by
    intro m x hx
    have : m ≠ n := by
      rintro rfl
      exact hx.elim (fun h => hF (Queue.mem_ids.2 ⟨x, h⟩)) fun h => hS (Queue.mem_ids.2 ⟨x, h⟩)
    rw [if_neg this]
    exact hd m x hx
  intro m x hx
  unfold insertKind at h2
  split at h2 <;> rename_i e <;> simp only [Option.map_eq_some_iff] at h2 <;> obtain ⟨q', hq', rfl⟩ := h2 <;>
    obtain rfl := (Queue.insert_some hq').2 <;> simp only at hx
  · rcases hx with hx | hx
    · rcases Queue.mem_ins.1 hx with hx | hx
      · cases hx; simp [term, period, e]
      · exact old m x (.inl hx)
    · exact old m x (.inr hx)
  · rcases hx with hx | hx
    · exact old m x (.inl hx)
    · rcases Queue.mem_ins.1 hx with hx | hx
      · cases hx; simp [term, period, e]
      · exact old m x (.inr hx)

/-- calls of the rent pallet that start nothing -/
theorem paced_less {l : List Event} (h : ∀ e ∈ l, Plain e = true)
    (hf : ∀ x ∈ w'.rent.fixedQ, x ∈ w.rent.fixedQ) (hs : ∀ x ∈ w'.rent.subQ, x ∈ w.rent.subQ) : Paced c w w' l := by
  intro d hd
  obtain ⟨h1, h2⟩ := Plain.out (c := c) h w.now (truth w) d
  rw [h2]
  exact ⟨h1, hd.sub hf hs⟩

theorem paced (hi : RInv c w) {x} (h : call c w a x = .ok w') : Paced c w w' (emit c a x) := by
  cases x <;> simp only [call] at h <;> simp only [emit]
  case create n du acc rv f x y =>
    simp only [create] at h; inv_ok at h
    obtain ⟨d, b, w1, q, _, hd, _, _, _, _, _, _, _, _, _, _, _, _, _, hb, h1, hq, rfl⟩ := h
    have e : w1.rent = w.rent := by
      cases e : feeNft x <;> rw [e] at h1 <;> simp only [depositRenterNft] at h1 <;> inv_ok at h1
      · subst h1; rfl
      · obtain ⟨z, hz, _, _, rfl⟩ := h1; rfl
    have e1 : w1.rent.fixedQ = w.rent.fixedQ := by rw [e]
    have e2 : w1.rent.subQ = w.rent.subQ := by rw [e]
    exact paced_less (by simp [Plain]) (fun x hx => e1 ▸ hx) fun x hx => e2 ▸ hx
  case cancel n =>
    simp only [cancel] at h; inv_ok at h
    obtain ⟨k, hk, _, _, h⟩ := h
    obtain ⟨k', d, b1, b2, hk', hd, t1, t2, rfl⟩ := finished_ok (ext_ok h)
    exact paced_less (by simp [Plain]) (fun x hx => hx) fun x hx => hx
  case revoke n =>
    obtain ⟨k, r, d, b0, b1, b2, hk, hr, hp, _, hd, t0, t1, t2, _, rfl⟩ := revoke_ok h
    refine paced_less (by simp [Plain]) ?_ ?_ <;> simp only [removeKind] <;> cases k.duration <;>
      first | exact fun x hx => hx | exact fun x hx => Queue.remove_sublist.subset hx
  case rent =>
    simp only [rent] at h; inv_ok at h
    obtain ⟨k, hk, _, hn, _, _, _, h⟩ := h
    exact start_paced hi hk hn h
  case makeOffer =>
    simp only [makeOffer] at h; inv_ok at h
    obtain ⟨k, _, hk, _, _, _, _, _, _, _, _, _, _, _, rfl⟩ := h
    exact paced_less (by simp [Plain]) (fun x hx => hx) fun x hx => hx
  case acceptOffer =>
    simp only [acceptOffer] at h; inv_ok at h
    obtain ⟨k, l, hk, hl, _, _, h⟩ := h
    refine start_paced hi hk ?_ h
    by_contra hne
    rw [hi.q.offers _ _ hk hne] at hl
    cases hl
  case retractOffer =>
    simp only [retractOffer] at h; inv_ok at h
    obtain ⟨l, hl, _, rfl⟩ := h
    exact paced_less (by simp [Plain]) (fun x hx => hx) fun x hx => hx
  case changeTerms n f p m ch =>
    simp only [changeTerms] at h; inv_ok at h
    obtain ⟨k, hk, _, _, _, _, _, _, rfl⟩ := h
    exact paced_less (by simp [Plain]) (fun x hx => hx) fun x hx => hx
  case acceptTerms =>
    simp only [acceptTerms] at h; inv_ok at h
    obtain ⟨k, s, hk, hs, _, _, _, _, _, _, rfl⟩ := h
    exact paced_less (by simp [Plain]) (fun x hx => hx) fun x hx => hx

end RentM

theorem AucM.hook_plain (w : World) (q : Queue) (k : Nat) : ∀ e ∈ hookEmit c w q k, Plain e = true := by
  induction q generalizing w k with
  | nil => simp [hookEmit]
  | cons x q ih =>
    obtain ⟨n, b⟩ := x
    simp only [hookEmit]
    split
    · intro e he
      rcases List.mem_append.1 he with he | he
      · have : (settleEmit c w n).all Plain = true := by
          unfold settleEmit
          split
          · rfl
          · split
            · rfl
            · split
              · split <;> rfl
              · rfl
        exact List.all_eq_true.1 this e he
      · split at he
        · split at he
          · simp at he
          · exact ih _ _ e he
        · exact ih _ _ e he
    · simp

theorem TrM.hook_plain (w : World) (q : Queue) (k : Nat) : ∀ e ∈ hookEmit c w q k, Plain e = true := by
  induction q generalizing w k with
  | nil => simp [hookEmit]
  | cons x q ih =>
    obtain ⟨n, b⟩ := x
    simp only [hookEmit]
    split
    · intro e he
      rcases List.mem_cons.1 he with rfl | he
      · unfold oneEvent; split <;> rfl
      · revert he
        generalize (if (hookOne w n).2 = true then k + 1 else k) = k'
        split
        · simp
        · exact ih _ _ e
    · simp

theorem signedEmit_plain (x : Call) (hx : ∀ y, x ≠ .rent y) : ∀ e ∈ signedEmit c w a x, Plain e = true := by
  refine List.all_eq_true.1 ?_
  cases x with
  | nft x =>
    cases x <;> simp only [signedEmit, NftM.emit] <;> first | rfl | (split <;> rfl)
  | mkt x =>
    cases x <;> simp only [signedEmit, MktM.emit] <;> first | rfl | (split <;> rfl)
  | auc x =>
    cases x <;> simp only [signedEmit, AucM.emit, AucM.soldEvent, AucM.droppedEvent] <;>
      first | rfl | (split <;> rfl) |
        (split
         · rfl
         · split <;> rfl)
  | rent x => exact absurd rfl (hx x)
  | tr x =>
    cases x <;> simp only [signedEmit, TrM.emit] <;>
      first | rfl |
        (split
         · split <;> rfl
         · rfl)
  | _ => rfl

theorem rootEmit_plain (x : RootCall) : ∀ e ∈ rootEmit x, Plain e = true := by
  cases x <;> simp [rootEmit, Plain]

theorem callEmit_plain (x : Call) : ∀ (o : Origin) (w : World), (∀ a, o ≠ .signed a) →
    ∀ e ∈ callEmit c w x o, Plain e = true := by
  induction x with
  | mandate y ih =>
    intro o w ho
    cases o with
    | signed a => exact absurd rfl (ho a)
    | root =>
      simp only [callEmit]
      split
      · exact ih .root w (by simp)
      · simp
    | ext =>
      simp only [callEmit]
      split
      · exact ih .root w (by simp)
      · simp
  | root y =>
    intro o w ho
    cases o with
    | signed a => exact absurd rfl (ho a)
    | root => exact rootEmit_plain y
    | ext => simp [callEmit]
  | _ =>
    intro o w ho
    cases o with
    | signed a => exact absurd rfl (ho a)
    | root => simp [callEmit]
    | ext => simp [callEmit]

theorem emit_plain (o : Op) (h1 : o ≠ .hookRent) (h2 : ∀ a x, o ≠ .call (.signed a) (.rent x)) :
    ∀ e ∈ emit c w o, Plain e = true := by
  cases o <;> simp only [emit]
  case call o x =>
    split
    · cases o with
      | signed a =>
        by_cases hx : ∃ y, x = .rent y
        · obtain ⟨y, rfl⟩ := hx; exact absurd rfl (h2 a y)
        · have e : callEmit c w x (.signed a) = signedEmit c w a x := by cases x <;> rfl
          rw [e]
          exact signedEmit_plain x fun y e => hx ⟨y, e⟩
      | root => exact callEmit_plain x _ w (by simp)
      | ext => exact callEmit_plain x _ w (by simp)
    · simp
  case hookAuc => exact AucM.hook_plain _ _ _
  case hookRent => exact absurd rfl h1
  case hookTr => exact TrM.hook_plain _ _ _
  all_goals simp

/-- one operation -/
theorem step_paced (hc : c.Ok) (hr : Reach c w) (o : Op) (ho : o.Ok c) : Paced c w (step c w o) (emit c w o) := by
  by_cases h1 : o = .hookRent
  · subst h1; exact RentM.hook_paced (hr.inv hc).rent hr.micro.balInv
  by_cases h2 : ∃ a x, o = .call (.signed a) (.rent x)
  · obtain ⟨a, x, rfl⟩ := h2
    simp only [step, emit]
    cases h : dispatch c (.rent x) (.signed a) w with
    | error e => exact .plain (by simp) rfl
    | ok w' => exact RentM.paced (hr.inv hc).rent (show RentM.call c w a x = .ok w' from h)
  · refine .plain (emit_plain o h1 fun a x e => h2 ⟨a, x, e⟩) ?_
    rcases step_rent_case hc hr o ho with ⟨a, x, rfl, _⟩ | ⟨rfl, _⟩ | e
    · exact absurd ⟨a, x, rfl⟩ h2
    · exact absurd rfl h1
    · exact e

import Verif.Proofs.Dust
import Verif.Proofs.StepBal
import Verif.Proofs.TeeCover
/-
Who may lose tokens in an operation, and that locked tokens stay.
-/
variable {c : Cfg} {w w' : World} {a : AccountId}

/-- Whoever has less is in `S`, and still has what is locked. -/
def Kept (S : AccountId → Prop) (b b' : Bal) : Prop :=
  ∀ y, b'.freeOf y < b.freeOf y → S y ∧ b.frozen y ≤ b'.freeOf y

theorem Kept.refl {S} (b : Bal) : Kept S b b := fun y h => absurd h (Nat.lt_irrefl _)

theorem Kept.trans {S} {b b1 b2 : Bal} (h1 : Kept S b b1) (h2 : Kept S b1 b2)
    (hf : ∀ y, b1.frozen y = b.frozen y) : Kept S b b2 := by
  intro y h
  by_cases h3 : b2.freeOf y < b1.freeOf y
  · obtain ⟨g1, g2⟩ := h2 y h3
    exact ⟨g1, by rw [← hf y]; exact g2⟩
  · obtain ⟨g1, g2⟩ := h1 y (by omega)
    exact ⟨g1, by omega⟩

theorem Kept.weaken {S T : AccountId → Prop} {b b' : Bal} (h : Kept S b b') (hst : ∀ x, S x → T x) :
    Kept T b b' := fun y hy => ⟨hst y (h y hy).1, (h y hy).2⟩

theorem Bal.Mono.kept {b b' : Bal} (h : Bal.Mono (fun _ => False) b b') (S) : Kept S b b' :=
  fun y hy => absurd (h.free y (by simp)) (by omega)

theorem Bal.Mono.frozen {S} {b b' : Bal} (h : Bal.Mono S b b') (y : AccountId) : b'.frozen y = b.frozen y := by
  unfold Bal.frozen; rw [h.tee, h.other]

theorem Bal.left_kept {ed x l} {b : Bal} {a : AccountId} (h : b.canLeave ed a x l) :
    b.frozen a ≤ if x < ed then 0 else x := by
  split
  · exact Nat.le_of_eq (h.2 (by assumption)).2
  · exact h.1

theorem Bal.withdraw_kept {ed a v l} {b b' : Bal} (h : b.withdraw ed a v l = .ok b') : Kept (· = a) b b' := by
  intro y hy
  have hf := Bal.withdraw_free h y
  rcases Bal.withdraw_ok h with ⟨h1, h2⟩ | ⟨h1, h2, h3, _⟩
  · subst h2; omega
  · split at hf
    · rename_i e
      subst e
      rw [hf]
      simp only [h1, if_false]
      exact ⟨trivial, Bal.left_kept h3⟩
    · omega

theorem Bal.transfer_kept {ed s d v l} {b b' : Bal} (h : b.transfer ed s d v l = .ok b') : Kept (· = s) b b' := by
  intro y hy
  rcases Bal.transfer_ok h with ⟨h1, h2⟩ | ⟨h1, h2, h3, h4, _⟩
  · subst h2; omega
  · have hf := Bal.transfer_free h h2 y
    split at hf
    · subst_vars; omega
    · split at hf
      · rename_i e
        subst e
        rw [hf]
        simp only [h1, if_false]
        exact ⟨trivial, Bal.left_kept h4⟩
      · omega

theorem Pays.kept {ed S} {b b' : Bal} (h : Pays ed S b b') : Kept S b b' := by
  induction h with
  | refl => exact .refl _
  | tail h1 h2 ih =>
    refine ih.trans ?_ (Pays.mono h1).frozen
    cases h2 with
    | transfer hs h => exact (Bal.transfer_kept h).weaken (by rintro x rfl; exact hs)
    | fee hs h =>
      obtain ⟨b1, h1, rfl⟩ := Bal.payFee_ok h
      have k := Bal.withdraw_kept h1
      exact fun y hy => ⟨(k y hy).1 ▸ hs, (k y hy).2⟩

/-- Who pays in a signed call. -/
def payer (c : Cfg) (w : World) (a : AccountId) : Call → AccountId → Prop
  | .auc _ => fun y => y = a ∨ y = c.aucPot
  | .rent x => RentM.payer c w a x
  | .tee _ => fun y => y = c.teePot
  | _ => fun y => y = a

theorem signedCall_kept {x : Call} (h : signedCall c w a x = .ok w') : Kept (payer c w a x) w.bal w'.bal := by
  cases x <;> simp only [signedCall] at h <;> simp only [payer]
  case nft x => exact (NftM.call_pays h).kept
  case mkt x => exact (MktM.call_pays h).kept
  case tr x => exact (TrM.call_pays h).kept
  case auc x => exact (AucM.call_pays h).kept
  case rent x => exact (RentM.call_pays h).kept
  case tee x =>
    rcases TeeM.call_bal h with ⟨_, h⟩ | ⟨m, e', hm⟩
    · exact h.kept
    · rw [e']; exact Kept.refl w.bal
  case br x =>
    cases x <;> simp only [BrM.call] at h
    case vote k t =>
      simp only [BrM.voteFor] at h; inv_ok at h
      obtain ⟨y, _, _, _, rfl⟩ := h
      cases y.2
      · exact Kept.refl w.bal
      · exact (Bal.mint_mono (ed := c.ed) w.bal t.recipient t.amount).kept _
    case deposit =>
      simp only [BrM.deposit] at h; inv_ok at h
      obtain ⟨b1, b2, _, _, h3, h4, rfl⟩ := h
      have k := (Pays.fee (S := (· = a)) rfl h3).kept.trans (Bal.withdraw_kept h4) (Bal.payFee_mono h3).frozen
      exact fun y hy => k y hy
  case bal d v l =>
    cases hb : w.bal.transfer c.ed a d v l with
    | error e => simp [hb, Except.map] at h
    | ok b =>
      simp [hb, Except.map] at h; subst h
      exact Bal.transfer_kept hb
  all_goals simp at h

theorem Queue.mem_remove' {n : NFTId} {q : Queue} {x} (h : x ∈ q.remove n) : x ∈ q := by
  induction q with
  | nil => exact h
  | cons y t ih =>
    obtain ⟨m, b⟩ := y
    simp only [Queue.remove] at h
    split at h
    · exact List.mem_cons_of_mem _ h
    · rcases List.mem_cons.1 h with e | h
      · exact e ▸ List.mem_cons_self
      · exact List.mem_cons_of_mem _ (ih h)

namespace RentM

/-- the contract of `n` is due for renewal, with rentee `y` -/
def Renewal (w : World) (n : NFTId) (y : AccountId) : Prop :=
  ∃ k u fee s, w.rent.contracts.get n = some k ∧ k.rentee = some y ∧ k.duration = .sub u ∧ k.rentFee = .tokens fee ∧
    k.start = some s ∧ u.newTerms = false ∧ w.now < s + u.maxDur ∧ ∃ b, (n, b) ∈ w.rent.subQ ∧ b ≤ w.now

theorem Ticks.subset (h : Ticks c w w') : (∀ n k, w'.rent.contracts.get n = some k → w.rent.contracts.get n = some k) ∧
    (∀ n b, (n, b) ∈ w'.rent.subQ → b ≤ w.now → ∃ b', (n, b') ∈ w.rent.subQ ∧ b' ≤ w.now) := by
  induction h with
  | refl => exact ⟨fun _ _ h => h, fun n b h1 h2 => ⟨b, h1, h2⟩⟩
  | @tail w1 w2 h0 h ih =>
    obtain ⟨i1, i2⟩ := ih
    have hn : w1.now = w.now := Ticks.now h0
    cases h.2.2 with
    | finish hk ho hf =>
      refine ⟨fun n k h => ?_, fun n b h1 h2 => ?_⟩
      · dsimp only at h; rw [FMap.get_erase] at h; split at h
        · simp at h
        · exact i1 _ _ h
      · exact i2 n b ((Queue.mem_remove' h1)) h2
    | @renew m b' k r s u fee bal hm hb' hk _ _ _ _ _ _ ht =>
      refine ⟨i1, fun n b h1 h2 => ?_⟩
      rcases Queue.mem_ins.1 h1 with e | h1
      · simp only [Prod.mk.injEq] at e
        exact e.1 ▸ i2 _ _ hm (hn ▸ hb')
      · exact i2 n b ((Queue.mem_remove' h1)) h2

theorem Ticks.kept (h : Ticks c w w') : Kept (fun y => y = c.rentPot ∨ ∃ n, Renewal w n y) w.bal w'.bal ∧
    ∀ y, w'.bal.frozen y = w.bal.frozen y := by
  induction h with
  | refl => exact ⟨.refl _, fun _ => rfl⟩
  | @tail w1 w2 h0 h ih =>
    have hn : w1.now = w.now := Ticks.now h0
    obtain ⟨s1, s2⟩ := Ticks.subset h0
    obtain ⟨hi, hb, ht⟩ := h
    have key : Kept (fun y => y = c.rentPot ∨ ∃ n, Renewal w n y) w1.bal w2.bal ∧
        ∀ y, w2.bal.frozen y = w1.bal.frozen y := by
      cases ht with
      | finish hk ho hf =>
        obtain ⟨d, b1, _, t1, t2, _⟩ := hf
        have := (Pays.tr (S := (· = c.rentPot)) rfl t1).thenTr rfl t2
        exact ⟨this.kept.weaken fun y e => .inl e, this.mono.frozen⟩
      | @renew m b' k r s u fee bal hm hb' hk h1 h2 h3 h4 h5 h6 ht =>
        refine ⟨(Bal.transfer_kept ht).weaken ?_, (Bal.transfer_mono ht).frozen⟩
        rintro y rfl
        exact .inr ⟨m, k, u, fee, s, s1 _ _ hk, h1, h3, h4, h2, h5, hn ▸ h6, s2 _ _ hm (hn ▸ hb')⟩
    exact ⟨ih.1.trans key.1 ih.2, fun y => (key.2 y).trans (ih.2 y)⟩

end RentM

/-- Who may lose tokens in an operation. -/
def loser (c : Cfg) (w : World) : Op → AccountId → Prop
  | .call (.signed a) x => payer c w a x
  | .hookAuc => fun y => y = c.aucPot
  | .hookRent => fun y => y = c.rentPot ∨ ∃ n, RentM.Renewal w n y
  | .txFee p _ _ _ => fun y => y = p
  | .eraPayout => fun y => y = c.rewPot
  | _ => fun _ => False

theorem step_kept (hc : c.Ok) (hr : Reach c w) (o : Op) : Kept (loser c w o) w.bal (step c w o).bal := by
  cases o <;> simp only [step]
  case call o x =>
    cases h : dispatch c x o w with
    | error e => exact .refl _
    | ok w' =>
      cases o with
      | root => rw [orSame, dispatch_bal x _ _ _ (by simp) h]; exact Kept.refl w.bal
      | ext => rw [orSame, dispatch_bal x _ _ _ (by simp) h]; exact Kept.refl w.bal
      | signed a =>
        have hs : signedCall c w a x = .ok w' := by cases x <;> exact h
        exact signedCall_kept hs
  case hookAuc => exact (AucM.hook_pays w).kept
  case hookRent => exact ((hr.inv hc).rent.ticks hr.micro.balInv).kept.1
  case hookTr =>
    have := congrArg World.bal (TrM.hook_frame (c := c) w)
    rw [this]; exact Kept.refl w.bal
  case hookTee =>
    have := congrArg World.bal (TeeM.hook_frame (c := c) w)
    rw [this]; exact Kept.refl w.bal
  case era e => split <;> exact .refl _
  case txFee q f t au =>
    cases h : RewM.txFee c w q f t au with
    | error e => exact .refl _
    | ok w' =>
      simp only [RewM.txFee] at h; inv_ok at h
      obtain ⟨b, h3, rfl⟩ := h
      simp only [orSame, loser]
      have k := Bal.withdraw_kept h3
      refine Kept.trans (b1 := b.burn (f + t)) (fun y hy => k y hy) ?_ (Bal.withdraw_mono h3).frozen
      cases au with
      | none => exact Kept.refl (b.burn (f + t))
      | some x => exact (Bal.mint_mono (ed := c.ed) (b.burn _) _ _).kept _
  case eraPayout =>
    unfold RewM.eraPayout
    dsimp only [World.putBal, World.ev]
    split
    · rename_i b h3
      have k := Bal.withdraw_kept h3
      exact fun y hy => k y hy
    · exact .refl _
  case mint => exact (Bal.mint_mono ..).kept _
  all_goals exact Kept.refl w.bal

/-- What each operation does to the total issuance. -/
theorem step_loses (hc : c.Ok) (hr : Reach c w) (o : Op) (ho : o.Ok c)
    (h1 : ∀ a x, o ≠ .call (.signed a) (.br x)) (h2 : ∀ p f t au, o ≠ .txFee p f t au) (h3 : o ≠ .eraPayout)
    (h4 : ∀ a v, o ≠ .mint a v) : ∃ p, Loses c.ed p w.bal (step c w o).bal := by
  have triv : ∀ {b : Bal}, b.issuance = w.bal.issuance → ∃ p, Loses c.ed p w.bal b := fun e => ⟨0, .inl e⟩
  cases o <;> simp only [step]
  case call o x =>
    cases h : dispatch c x o w with
    | error e => exact triv rfl
    | ok w' =>
      cases o with
      | root => exact triv (by rw [orSame, dispatch_bal x _ _ _ (by simp) h])
      | ext => exact triv (by rw [orSame, dispatch_bal x _ _ _ (by simp) h])
      | signed a =>
        have hs : signedCall c w a x = .ok w' := by cases x <;> exact h
        simp only [orSame]
        cases x <;> simp only [signedCall] at hs
        case nft x => exact triv (NftM.call_issuance hs)
        case mkt x => exact triv (MktM.call_issuance hs)
        case tr x => exact triv (TrM.call_issuance hs)
        case auc x => exact ⟨_, AucM.call_loses (not_pot_ne ho (by simp [Cfg.pot])).symm hs⟩
        case rent x => exact ⟨_, RentM.call_loses hs⟩
        case tee x => exact ⟨_, TeeM.call_loses hs⟩
        case br x => exact absurd rfl (h1 a x)
        case bal d v l =>
          cases hb : w.bal.transfer c.ed a d v l with
          | error e => simp [hb, Except.map] at hs
          | ok b =>
            simp [hb, Except.map] at hs; subst hs
            exact ⟨a, Softs.loses (.single (.out hb))⟩
        all_goals simp at hs
  case hookAuc => exact ⟨_, (AucM.hookLoop_soft (c := c) _ w _).loses⟩
  case hookRent => exact ⟨_, ((hr.inv hc).rent.ticks hr.micro.balInv).soft.loses⟩
  case hookTr => exact triv (by rw [congrArg World.bal (TrM.hook_frame (c := c) w)])
  case hookTee => exact triv (by rw [congrArg World.bal (TeeM.hook_frame (c := c) w)])
  case era e => split <;> exact triv rfl
  case txFee => exact absurd rfl (h2 _ _ _ _)
  case eraPayout => exact absurd rfl h3
  case mint => exact absurd rfl (h4 _ _)
  all_goals exact triv rfl

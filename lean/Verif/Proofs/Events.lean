import Verif.Proofs.Lift
/-
Events are only appended, and each kind of event has only one kind of cause.
-/
variable {c : Cfg} {w w' : World} {a : AccountId}

/-- the operation that can emit an event -/
def Ev.By (o : Op) : Ev → Prop
  | .voted k t a => o = .call (.signed a) (.br (.vote k t))
  | .approved k t => ∃ a, o = .call (.signed a) (.br (.vote k t))
  | .deposited k _ r v => ∃ a, o = .call (.signed a) (.br (.deposit v r k))
  | .protocolSet n => ∃ a r p k, o = .call (.signed a) (.tr (.set n r p k))
  | .consentAdded n a => o = .call (.signed a) (.tr (.addConsent n))
  | .transmitted n => o = .hookTr ∨ ∃ a, o = .call (.signed a) (.tr (.addConsent n))
  | .transmissionError _ => o = .hookTr
  | .rewardClaimed e a _ => o = .call (.signed a) (.tee (.claim e))
  | .mandated _ => ∃ x, o = .call .root (.mandate x) ∨ o = .call .ext (.mandate x)
  | .auctionCompleted n _ _ => o = .hookAuc ∨ (∃ a, o = .call (.signed a) (.auc (.end_ n))) ∨
      ∃ a p, o = .call (.signed a) (.auc (.buyItNow n p))
  | .offerMade n a => ∃ b, o = .call (.signed a) (.rent (.makeOffer n b))
  | .contractCreated n _ => ∃ a d ac r f x y, o = .call (.signed a) (.rent (.create n d ac r f x y))
  | .reported _ op r a => o = .call (.signed a) (.tee (.submitReport op r))
  | .feesTaken f => ∃ p t au, o = .txFee p f t au
  | .eraPaid _ _ => o = .eraPayout

/-- `w'` has the events of `w` and some caused by `o` -/
def Evs (o : Op) (w w' : World) : Prop := ∃ l, w'.evs = l ++ w.evs ∧ ∀ e ∈ l, Ev.By o e

theorem Evs.of_eq {o : Op} (h : w'.evs = w.evs) : Evs o w w' := ⟨[], by simp [h], by simp⟩

theorem Evs.one {o : Op} {e : Ev} (h : w'.evs = e :: w.evs) (he : Ev.By o e) : Evs o w w' :=
  ⟨[e], by simp [h], by simpa using he⟩

theorem Evs.two {o : Op} {e f : Ev} (h : w'.evs = e :: f :: w.evs) (he : Ev.By o e)
    (hf : Ev.By o f) : Evs o w w' :=
  ⟨[e, f], by simp [h], by simpa using ⟨he, hf⟩⟩

theorem Evs.trans {o : Op} {w1 w2 w3 : World} (h : Evs o w1 w2) (h' : Evs o w2 w3) :
    Evs o w1 w3 := by
  obtain ⟨l, e, hl⟩ := h
  obtain ⟨m, f, hm⟩ := h'
  refine ⟨m ++ l, by rw [f, e, List.append_assoc], ?_⟩
  intro x hx
  rcases List.mem_append.1 hx with h | h
  · exact hm x h
  · exact hl x h

theorem AucM.call_evs {x} (h : AucM.call c w a x = .ok w') :
    Evs (.call (.signed a) (.auc x)) w w' := by
  cases x <;> simp only [call, create, cancel, end_, addBid, removeBidCall, buyItNow, claim] at h
  case end_ n => frame_auto at h; exact .one rfl (Or.inr (Or.inl ⟨a, rfl⟩))
  case buyItNow n p => frame_auto at h; exact .one rfl (Or.inr (Or.inr ⟨a, p, rfl⟩))
  all_goals frame_auto at h
  all_goals exact .of_eq rfl

theorem RentM.call_evs {x} (h : RentM.call c w a x = .ok w') :
    Evs (.call (.signed a) (.rent x)) w w' := by
  have hs : ∀ {n k r}, startContract c w n k r = .ok w' →
      w'.evs = w.evs := by
    intro n k r h
    obtain ⟨w1, q, h1, h2, rfl⟩ := startContract_ok h
    obtain ⟨b1, b2, _, _, c1, c2, rfl⟩ := takeFees_ok h1
    rfl
  cases x <;> simp only [call] at h
  case create =>
    obtain ⟨d, b, q, h⟩ := create_ok h
    have e := h.2.2.2.2.2.2.2.2.2.2.2.2.2.2.2.2.2.2
    clear h; subst e; exact .one rfl ⟨_, _, _, _, _, _, _, rfl⟩
  case cancel =>
    simp only [cancel] at h; inv_ok at h
    obtain ⟨k, hk, h1, h2, h⟩ := h
    obtain ⟨k, d, b1, b2, hk, hd, _, _, rfl⟩ := finished_ok (ext_ok h)
    exact .of_eq rfl
  case revoke =>
    obtain ⟨k, r, d, b0, b1, b2, hk, hr, hp, hcr, hd, _, _, _, _, rfl⟩ := revoke_ok h
    exact .of_eq rfl
  case rent =>
    simp only [rent] at h; inv_ok at h
    obtain ⟨k, hk, _, _, _, _, _, h⟩ := h
    exact .of_eq (hs h)
  case makeOffer => simp only [makeOffer] at h; frame_auto at h; exact .one rfl ⟨_, rfl⟩
  case acceptOffer =>
    simp only [acceptOffer] at h; inv_ok at h
    obtain ⟨k, l, hk, _, _, _, h⟩ := h
    exact .of_eq (hs h)
  case retractOffer => simp only [retractOffer] at h; frame_auto at h; exact .of_eq rfl
  case changeTerms => simp only [changeTerms] at h; frame_auto at h; exact .of_eq rfl
  case acceptTerms => simp only [acceptTerms] at h; frame_auto at h; exact .of_eq rfl

theorem TrM.call_evs {x} (h : TrM.call c w a x = .ok w') :
    Evs (.call (.signed a) (.tr x)) w w' := by
  cases x <;> simp only [call] at h
  case set => simp only [set] at h; frame_auto at h; exact .one rfl ⟨_, _, _, _, rfl⟩
  case remove =>
    simp only [remove] at h; inv_ok at h
    obtain ⟨d, t, hd, ho, h1, ht, h2, rfl⟩ := h
    cases t.protocol <;> exact .of_eq rfl
  case resetTimer => simp only [resetTimer] at h; frame_auto at h; exact .of_eq rfl
  case addConsent =>
    obtain ⟨d, t, x, hd, h1, ht, hx, h2, h3, h4, h5, h⟩ := addConsent_ok h
    rcases h with ⟨h6, rfl⟩ | ⟨h6, _, rfl⟩ | ⟨h6, e, q, _, _, _, _, rfl⟩
    · exact .one rfl rfl
    · exact .two rfl (Or.inr ⟨a, rfl⟩) rfl
    · exact .one rfl rfl

theorem TeeM.call_evs {x} (h : TeeM.call c w a x = .ok w') :
    Evs (.call (.signed a) (.tee x)) w w' := by
  cases x <;> simp only [call] at h
  case unregister =>
    simp only [unregister] at h
    split at h
    · simp only [unregisterAssigned] at h; frame_auto at h; exact .of_eq rfl
    · simp only [dropRegistration] at h; frame_auto at h; exact .of_eq rfl
  case claim => simp only [claim] at h; frame_auto at h; exact .one rfl rfl
  case submitReport => simp only [submitReport] at h; frame_auto at h; exact .one rfl rfl
  all_goals simp only [register, update, dropUpdate, withdraw, bondExtra, refundExcess] at h
  all_goals frame_auto at h
  all_goals exact .of_eq rfl

theorem BrM.call_evs {x} (h : BrM.call c w a x = .ok w') :
    Evs (.call (.signed a) (.br x)) w w' := by
  cases x <;> simp only [call] at h
  case vote =>
    simp only [voteFor] at h; inv_ok at h
    obtain ⟨y, _, _, _, rfl⟩ := h
    cases y.2
    · exact .one rfl rfl
    · exact .two rfl ⟨a, rfl⟩ rfl
  case deposit => simp only [deposit] at h; frame_auto at h; exact .one rfl ⟨a, rfl⟩

theorem AucM.settleOne_evs (w : World) (n : NFTId) : Evs .hookAuc w (settleOne c w n).1 := by
  unfold settleOne
  repeat' split
  all_goals first | exact .of_eq rfl | exact .one rfl (Or.inl rfl)

theorem AucM.hookLoop_evs (q : Queue) (w : World) (i : Nat) :
    Evs .hookAuc w (hookLoop c w q i).1 := by
  induction q generalizing w i with
  | nil => exact .of_eq rfl
  | cons x t ih =>
    obtain ⟨n, b⟩ := x
    simp only [hookLoop]
    have h := settleOne_evs (c := c) w n
    split
    · split
      · split
        · exact h
        · exact h.trans (ih _ _)
      · exact h.trans (ih _ _)
    · exact .of_eq rfl

theorem TrM.hookOne_evs (w : World) (n : NFTId) : Evs .hookTr w (hookOne w n).1 := by
  unfold hookOne
  split
  · rename_i w1 h
    obtain ⟨t, d, ht, hd, rfl⟩ := transmit_ok h
    exact .one rfl (Or.inl rfl)
  · exact .one rfl rfl

theorem TrM.hookLoop_evs (q : Queue) (w : World) (i : Nat) :
    Evs .hookTr w (hookLoop c w q i).1 := by
  induction q generalizing w i with
  | nil => exact .of_eq rfl
  | cons x t ih =>
    obtain ⟨n, b⟩ := x
    simp only [hookLoop]
    have h := hookOne_evs w n
    generalize (if (hookOne w n).2 = true then i + 1 else i) = j
    split
    · split
      · exact h
      · exact h.trans (ih _ _)
    · exact .of_eq rfl

/-- calls that are not signed emit only `mandated` events -/
theorem dispatch_evs (x : Call) : ∀ (o : Origin) (w w' : World), (∀ a, o ≠ .signed a) →
    dispatch c x o w = .ok w' → ∃ l, w'.evs = l ++ w.evs ∧
      ((∀ e ∈ l, ∃ b, e = .mandated b) ∧ (l ≠ [] → ∃ y, x = .mandate y)) := by
  induction x with
  | mandate y ih =>
    have key : ∀ w w', mandateResult w (dispatch c y .root w) = .ok w' →
        ∃ l, w'.evs = l ++ w.evs ∧
      ((∀ e ∈ l, ∃ b, e = .mandated b) ∧ (l ≠ [] → ∃ z, Call.mandate y = .mandate z)) := by
      intro w w' h
      rcases mandateResult_ok h with ⟨w1, hy, rfl⟩ | ⟨e, hy, rfl⟩
      case inr => exact ⟨[.mandated false], rfl, by simp, fun _ => ⟨y, rfl⟩⟩
      case inl =>
        obtain ⟨l, h1, h2, _⟩ := ih .root w w1 (by simp) hy
        refine ⟨.mandated true :: l, by simp [World.ev, h1], ?_, fun _ => ⟨y, rfl⟩⟩
        intro e he
        rcases List.mem_cons.1 he with rfl | he
        · exact ⟨_, rfl⟩
        · exact h2 e he
    intro o w w' ho h
    cases o with
    | signed a => exact absurd rfl (ho a)
    | root => exact key w w' h
    | ext => exact key w w' h
  | root y =>
    intro o w w' ho h
    cases o with
    | signed a => exact absurd rfl (ho a)
    | root =>
      refine ⟨[], ?_, by simp, by simp⟩
      simp only [dispatch] at h
      cases y <;> simp only [rootCall] at h
      case tee r => exact fr% World.evs (TeeM.root_frame h)
      all_goals simp only [Except.ok.injEq] at h; subst h
      case trFee k x => cases k <;> rfl
      all_goals rfl
    | ext => simp [dispatch] at h
  | ext y =>
    intro o w w' ho h
    cases o with
    | signed a => exact absurd rfl (ho a)
    | root => exact ⟨[], fr% World.evs (BrM.ext_frame h), by simp, by simp⟩
    | ext => exact ⟨[], fr% World.evs (BrM.ext_frame h), by simp, by simp⟩
  | _ =>
    intro o w w' ho h
    cases o with
    | signed a => exact absurd rfl (ho a)
    | root => simp [dispatch] at h
    | ext => simp [dispatch] at h

/-- Every operation only appends events it can cause. -/
theorem step_evs (w : World) (o : Op) : Evs o w (step c w o) := by
  cases o <;> simp only [step]
  case call o x =>
    cases h : dispatch c x o w with
    | error e => exact .of_eq rfl
    | ok w' =>
      show Evs _ w w'
      cases o with
      | signed a =>
        cases x <;> simp only [dispatch, signedCall] at h
        case nft x => exact .of_eq (fr% World.evs (NftM.call_frame h))
        case mkt x => exact .of_eq (fr% World.evs (MktM.call_frame h))
        case auc x => exact AucM.call_evs h
        case rent x => exact RentM.call_evs h
        case tr x => exact TrM.call_evs h
        case tee x => exact TeeM.call_evs h
        case br x => exact BrM.call_evs h
        case bal d v l =>
          cases hb : w.bal.transfer c.ed a d v l with
          | error e => simp [hb, Except.map] at h
          | ok b => simp [hb, Except.map] at h; subst h; exact .of_eq rfl
        all_goals simp at h
      | root =>
        obtain ⟨l, h1, h2, h3⟩ := dispatch_evs x _ w w' (by simp) h
        refine ⟨l, h1, fun e he => ?_⟩
        obtain ⟨b, rfl⟩ := h2 e he
        obtain ⟨y, rfl⟩ := h3 (List.ne_nil_of_mem he)
        exact ⟨y, Or.inl rfl⟩
      | ext =>
        obtain ⟨l, h1, h2, h3⟩ := dispatch_evs x _ w w' (by simp) h
        refine ⟨l, h1, fun e he => ?_⟩
        obtain ⟨b, rfl⟩ := h2 e he
        obtain ⟨y, rfl⟩ := h3 (List.ne_nil_of_mem he)
        exact ⟨y, Or.inr rfl⟩
  case hookAuc => exact AucM.hookLoop_evs _ _ _
  case hookRent => exact .of_eq (fr% World.evs (RentM.hook_frame (c := c) w))
  case hookTr =>
    obtain ⟨l, h1, h2⟩ := TrM.hookLoop_evs (c := c) w.tr.queue w 0
    refine ⟨l, ?_, h2⟩
    unfold TrM.hook
    simp only
    split <;> exact h1
  case hookTee => exact .of_eq (fr% World.evs (TeeM.hook_frame (c := c) w))
  case tick => exact .of_eq rfl
  case era e => split <;> exact .of_eq rfl
  case txFee p f t au =>
    cases h : RewM.txFee c w p f t au with
    | error e => exact .of_eq rfl
    | ok w' =>
      simp only [RewM.txFee] at h
      frame_auto at h
      exact .one rfl ⟨p, t, au, rfl⟩
  case eraPayout => exact .one rfl rfl
  case mint a v => exact .of_eq rfl
  case lock a v => exact .of_eq rfl

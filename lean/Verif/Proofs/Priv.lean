import Verif.Proofs.StepBal
/-
Calls with root or committee origin, and what changes the state of tee, bridge and staking rewards.
-/
variable {c : Cfg} {w w' : World} {a : AccountId}

/-- the call inside all mandates -/
def Call.core : Call → Call
  | .mandate x => x.core
  | x => x

/-- What a call with root or committee origin does. -/
inductive Priv (c : Cfg) (w : World) (x : Call) : World → Prop where
  | none (l : List Ev) : (∀ e ∈ l, ∃ b, e = .mandated b) → Priv c w x { w with evs := l ++ w.evs }
  | root (r : RootCall) (w1 : World) (l : List Ev) : x.core = .root r → rootCall c w r = .ok w1 →
      (∀ e ∈ l, ∃ b, e = .mandated b) → Priv c w x { w1 with evs := l ++ w1.evs }
  | ext (r : BrM.ExtCall) (w1 : World) (l : List Ev) : x.core = .ext r → BrM.ext c w r = .ok w1 →
      (∀ e ∈ l, ∃ b, e = .mandated b) → Priv c w x { w1 with evs := l ++ w1.evs }

theorem Priv.ev {x : Call} {b : Bool} (h : Priv c w x w') :
    Priv c w (.mandate x) (w'.ev (.mandated b)) := by
  cases h with
  | none l hl =>
    exact .none (.mandated b :: l) (by intro e he; rcases List.mem_cons.1 he with h | h; exact ⟨b, h⟩; exact hl e h)
  | root r w1 l hx h hl =>
    exact .root r w1 (.mandated b :: l) hx h
      (by intro e he; rcases List.mem_cons.1 he with h | h; exact ⟨b, h⟩; exact hl e h)
  | ext r w1 l hx h hl =>
    exact .ext r w1 (.mandated b :: l) hx h
      (by intro e he; rcases List.mem_cons.1 he with h | h; exact ⟨b, h⟩; exact hl e h)

theorem dispatch_priv (x : Call) : ∀ (o : Origin) (w w' : World), (∀ a, o ≠ .signed a) →
    dispatch c x o w = .ok w' → Priv c w x w' := by
  induction x with
  | mandate y ih =>
    have key : ∀ w w', mandateResult w (dispatch c y .root w) = .ok w' → Priv c w (.mandate y) w' := by
      intro w w' h
      rcases mandateResult_ok h with ⟨w1, hy, rfl⟩ | ⟨e, hy, rfl⟩
      · exact (ih .root w w1 (by simp) hy).ev
      · exact .none [.mandated false] (by simp)
    intro o w w' ho h
    cases o with
    | signed a => exact absurd rfl (ho a)
    | root => exact key w w' h
    | ext => exact key w w' h
  | root y =>
    intro o w w' ho h
    cases o with
    | signed a => exact absurd rfl (ho a)
    | root => exact .root y w' [] rfl h (by simp)
    | ext => simp [dispatch] at h
  | ext y =>
    intro o w w' ho h
    cases o with
    | signed a => exact absurd rfl (ho a)
    | root => exact .ext y w' [] rfl h (by simp)
    | ext => exact .ext y w' [] rfl h (by simp)
  | _ =>
    intro o w w' ho h
    cases o with
    | signed a => exact absurd rfl (ho a)
    | root => simp [dispatch] at h
    | ext => simp [dispatch] at h

/-- What an operation is, from the point of view of the pallets without NFTs. -/
inductive Side (c : Cfg) (w : World) : Op → World → Prop where
  | tee {a : AccountId} {x : TeeM.Call} {w' : World} : ¬ c.pot a → TeeM.call c w a x = .ok w' →
      Side c w (.call (.signed a) (.tee x)) w'
  | br {a : AccountId} {x : BrM.Call} {w' : World} : ¬ c.pot a → BrM.call c w a x = .ok w' →
      Side c w (.call (.signed a) (.br x)) w'
  | teeRoot {g : Origin} {x : Call} {r : TeeM.RootCall} {w' : World} {l : List Ev} :
      (∀ a, g ≠ .signed a) → x.core = .root (.tee r) → TeeM.root c w r = .ok w' →
      (∀ e ∈ l, ∃ b, e = .mandated b) → Side c w (.call g x) { w' with evs := l ++ w'.evs }
  | root {g : Origin} {x : Call} {r : RootCall} {w' : World} {l : List Ev} :
      (∀ a, g ≠ .signed a) → x.core = .root r → (∀ t, r ≠ .tee t) → rootCall c w r = .ok w' →
      w'.tee = w.tee → w'.br = w.br → w'.rew = w.rew → w'.bal = w.bal → w'.evs = w.evs →
      w'.now = w.now → w'.active = w.active →
      (∀ e ∈ l, ∃ b, e = .mandated b) → Side c w (.call g x) { w' with evs := l ++ w'.evs }
  | ext {g : Origin} {x : Call} {r : BrM.ExtCall} {w' : World} {l : List Ev} :
      (∀ a, g ≠ .signed a) → x.core = .ext r → BrM.ext c w r = .ok w' →
      (∀ e ∈ l, ∃ b, e = .mandated b) → Side c w (.call g x) { w' with evs := l ++ w'.evs }
  | hookTee : Side c w .hookTee (TeeM.hook c w)
  | tick : Side c w .tick { w with now := w.now + 1 }
  | era {e : Era} : (∀ x ∈ w.active, x ≤ e) → Side c w (.era e) { w with active := some e }
  | txFee {p : AccountId} {f t : Balance} {au : Option AccountId} {w' : World} : ¬ c.pot p →
      RewM.txFee c w p f t au = .ok w' → Side c w (.txFee p f t au) w'
  | eraPayout : Side c w .eraPayout (RewM.eraPayout c w).1
  | mint {a : AccountId} {v : Balance} : Side c w (.mint a v) (w.putBal (w.bal.mint c.ed a v))
  | lock {a : AccountId} {v : Balance} : ¬ c.pot a →
      Side c w (.lock a v) (w.putBal { w.bal with other := w.bal.other.insert a v })
  /-- nothing, or a call or hook of the NFT pallets, or a transfer: tokens move, nothing else changes
  here -/
  | other {o : Op} {w' : World} : w'.tee = w.tee → w'.br = w.br → w'.rew = w.rew → w'.now = w.now →
      w'.active = w.active → Pays c.ed (fun _ => True) w.bal w'.bal →
      Side c w o w'

theorem step_side (w : World) (o : Op) (ho : o.Ok c) : Side c w o (step c w o) := by
  cases o <;> simp only [step]
  case call o x =>
    cases h : dispatch c x o w with
    | error e => exact .other rfl rfl rfl rfl rfl .refl
    | ok w' =>
      show Side c w _ w'
      cases o with
      | signed a =>
        have ha : ¬ c.pot a := ho
        cases x <;> simp only [dispatch, signedCall] at h
        case nft x =>
          have e := NftM.call_frame h
          exact .other (fr% World.tee e) (fr% World.br e) (fr% World.rew e) (fr% World.now e)
            (fr% World.active e) ((NftM.call_pays h).weaken (by simp))
        case mkt x =>
          have e := MktM.call_frame h
          exact .other (fr% World.tee e) (fr% World.br e) (fr% World.rew e) (fr% World.now e)
            (fr% World.active e) ((MktM.call_pays h).weaken (by simp))
        case auc x =>
          have e := AucM.call_frame h
          exact .other (fr% World.tee e) (fr% World.br e) (fr% World.rew e) (fr% World.now e)
            (fr% World.active e) ((AucM.call_pays h).weaken (by simp))
        case rent x =>
          have e := RentM.call_frame h
          exact .other (fr% World.tee e) (fr% World.br e) (fr% World.rew e) (fr% World.now e)
            (fr% World.active e) ((RentM.call_pays h).weaken (by simp))
        case tr x =>
          have e := TrM.call_frame h
          exact .other (fr% World.tee e) (fr% World.br e) (fr% World.rew e) (fr% World.now e)
            (fr% World.active e) ((TrM.call_pays h).weaken (by simp))
        case tee x => exact .tee ha h
        case br x => exact .br ha h
        case bal d v l =>
          cases hb : w.bal.transfer c.ed a d v l with
          | error e => simp [hb, Except.map] at h
          | ok b =>
            simp [hb, Except.map] at h; subst h
            exact .other rfl rfl rfl rfl rfl (.tr trivial hb)
        all_goals simp at h
      | root =>
        cases dispatch_priv x _ _ _ (by simp) h with
        | none l hl => exact .other rfl rfl rfl rfl rfl .refl
        | root r w1 l hx h hl =>
          cases r
          case tee r => exact .teeRoot (by simp) hx h hl
          case trFee k y =>
            refine .root (by simp) hx (by simp) h ?_ ?_ ?_ ?_ ?_ ?_ ?_ hl <;>
              (simp only [rootCall, Except.ok.injEq] at h; subst h; cases k <;> rfl)
          all_goals
            refine .root (by simp) hx (by simp) h ?_ ?_ ?_ ?_ ?_ ?_ ?_ hl <;>
              (simp only [rootCall, Except.ok.injEq] at h; subst h; rfl)
        | ext r w1 l hx h1 hl => exact .ext (by simp) hx h1 hl
      | ext =>
        cases dispatch_priv x _ _ _ (by simp) h with
        | none l hl => exact .other rfl rfl rfl rfl rfl .refl
        | root r w1 l hx h hl =>
          cases r
          case tee r => exact .teeRoot (by simp) hx h hl
          case trFee k y =>
            refine .root (by simp) hx (by simp) h ?_ ?_ ?_ ?_ ?_ ?_ ?_ hl <;>
              (simp only [rootCall, Except.ok.injEq] at h; subst h; cases k <;> rfl)
          all_goals
            refine .root (by simp) hx (by simp) h ?_ ?_ ?_ ?_ ?_ ?_ ?_ hl <;>
              (simp only [rootCall, Except.ok.injEq] at h; subst h; rfl)
        | ext r w1 l hx h1 hl => exact .ext (by simp) hx h1 hl
  case hookAuc =>
    have e := AucM.hook_frame (c := c) w
    exact .other (fr% World.tee e) (fr% World.br e) (fr% World.rew e) (fr% World.now e)
            (fr% World.active e) ((AucM.hook_pays w).weaken (by simp))
  case hookRent =>
    have e := RentM.hook_frame (c := c) w
    exact .other (fr% World.tee e) (fr% World.br e) (fr% World.rew e) (fr% World.now e)
            (fr% World.active e) ((RentM.hook_pays w).weaken (by simp))
  case hookTr =>
    have e := TrM.hook_frame (c := c) w
    refine .other (fr% World.tee e) (fr% World.br e) (fr% World.rew e) (fr% World.now e)
            (fr% World.active e) ?_
    rw [show (TrM.hook c w).bal = w.bal from fr% World.bal e]
  case hookTee => exact .hookTee
  case tick => exact .tick
  case era e =>
    split
    · rename_i h; exact .era h
    · exact .other rfl rfl rfl rfl rfl .refl
  case txFee p f t au =>
    cases h : RewM.txFee c w p f t au with
    | error e => exact .other rfl rfl rfl rfl rfl .refl
    | ok w' => exact .txFee ho h
  case eraPayout => exact .eraPayout
  case mint a v => exact .mint
  case lock a v => exact .lock ho

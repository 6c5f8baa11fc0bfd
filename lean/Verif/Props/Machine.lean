import Verif.Proofs.Machine
import Verif.Props.Horizon
import Verif.Props.Auction
import Verif.Props.Root
import Mathlib.Data.List.Infix
/-
C112: computing with the machine integers of the code makes no difference.
-/
namespace Spec

/-- five values of type `u8` -/
def ByteParams (p : _root_.Params) : Prop := p.p1 ≤ 255 ∧ p.p2 ≤ 255 ∧ p.p3 ≤ 255 ∧ p.p4 ≤ 255 ∧ p.p5 ≤ 255

/-- the arguments of a call have the types of the code: report parameters and weights are `u8`, block numbers `u32`,
and a list of accounts to consent is within its bound -/
def TypedCall (c : Cfg) : Call → Prop
  | .tee (.submitReport _ r) => ByteParams r.params
  | .root (.tee (.setWeights p)) => ByteParams p
  | .tr (.resetTimer _ b) => b ≤ U32MAX
  | .tr (.set _ _ (.atBlock b) _) => b ≤ U32MAX
  | .tr (.set _ _ (.atBlockWithReset b) _) => b ≤ U32MAX
  | .tr (.set _ _ (.onConsent l _) _) => l.length ≤ c.trConsents
  | .tr (.set _ _ (.onConsentAtBlock l _ b) _) => b ≤ U32MAX ∧ l.length ≤ c.trConsents
  | .mandate x => TypedCall c x
  | _ => True

/-- only calls have such arguments -/
def Typed (c : Cfg) : Op → Prop
  | .call _ x => TypedCall c x
  | _ => True

/-- the stored weights and reports are `u8` -/
structure ReportBytes (w : World) : Prop where
  weights : ByteParams w.tee.weights
  reports : ∀ k l, w.tee.reports.get k = some l → ∀ r ∈ l, ByteParams r.params

/-- Numbers are far enough from the limits of their types: the block number plus the longest period anything may be
planned for, what the auctions owe, and the number of operators. -/
structure InRange (c : Cfg) (w : World) : Prop where
  blocks : horizon c w < U32MAX
  owed : owed w ≤ U128MAX
  operators : w.tee.data.card ≤ U32MAX

end Spec

variable {c : Cfg} {w w' : World}

theorem Spec.InRange.parts (h : Spec.InRange c w) : w.now + max (c.maxDelay + c.maxDur) c.grace ≤ U32MAX ∧
    w.now + max c.rentAvail c.rentMaxDur ≤ U32MAX ∧ w.now + c.proposalLife ≤ U32MAX ∧ w.now + 1 ≤ U32MAX := by
  have := h.blocks
  unfold Spec.horizon at this
  omega

theorem owed_same (w : World) : Spec.owed w = AucM.owed w := by
  rw [AucM.owed_eq]; rfl

/-- C112, for calls: a call with any origin gives the same result, with machine integers and with unbounded numbers. -/
theorem C112_call (hc : c.Ok) (hr : Reach c w) (hf : Spec.InRange c w) (hb : Spec.ReportBytes w) {x : Call}
    (ht : Spec.TypedCall c x) (g : Origin) : Mach.dispatch c x g w = dispatch c x g w := by
  have hroot : ∀ x : Call, Mach.dispatch c x .root w = dispatch c x .root w := by
    intro x
    induction x with
    | mandate x ih => simp only [Mach.dispatch, dispatch, ih]
    | _ => rfl
  obtain ⟨p1, p2, p3, p4⟩ := hf.parts
  cases g with
  | root => exact hroot x
  | ext => cases x with
    | mandate x => simp only [Mach.dispatch, dispatch, hroot]
    | _ => rfl
  | signed a =>
    have hi := hr.inv hc
    cases x with
    | auc x => exact Mach.aucCall_eq (by rw [← owed_same]; exact hf.owed) hr.aucNear p1 x
    | rent x =>
      exact Mach.rentCall_eq (fun n k hk => ⟨(hi.rent.q.con n k hk).period.2, fun s hs => ((hi.rent.q.con n k hk).started s hs).2⟩) p2 x
    | tr x =>
      refine Mach.trCall_eq x (fun n r p k e => ?_) (fun n b e => ?_)
      · subst e
        cases p <;> simp only [Spec.TypedCall] at ht <;> simp [TrM.endBlock, TrM.consentData, ht]
      · subst e; exact ht
    | tee x => exact Mach.teeCall_eq ⟨hb.weights, hb.reports⟩ hf.operators hr.teePast (by omega) x
    | br x => exact Mach.brCall_eq p3 x
    | _ => rfl

theorem bytes_step (o : Op) (ho : o.Ok c) (ht : Spec.Typed c o) (hb : Spec.ReportBytes w) :
    Spec.ReportBytes (step c w o) := by
  constructor
  · by_cases h : Spec.params (step c w o) = Spec.params w
    · have : (step c w o).tee.weights = w.tee.weights := congrArg Spec.Params.weights h
      rw [this]; exact hb.weights
    · obtain ⟨g, x, rfl, hg⟩ := C60_only o h
      have e : step c w (.call g x) = orSame w (dispatch c x g w) := rfl
      rw [e] at h ⊢
      cases hd : dispatch c x g w with
      | error e => rw [hd] at h; exact absurd rfl h
      | ok w1 =>
        rw [hd] at h
        have h : Spec.params w1 ≠ Spec.params w := h
        show Spec.ByteParams w1.tee.weights
        have hord := (C60_ordered hg hd).resolve_left h
        have hin : ∀ x, Spec.TypedCall c x → Spec.TypedCall c (Spec.innermost x) := by
          intro x ht
          induction x with
          | mandate x ih => exact ih ht
          | _ => exact ht
        replace hin := hin x ht
        generalize Spec.innermost x = y at hord hin
        have key : ∀ q : Spec.Params, Spec.ordered (Spec.params w) y q → Spec.ByteParams q.weights := by
          intro q hq
          unfold Spec.ordered at hq
          split at hq
          all_goals first
            | (subst hq; first | exact hb.weights | exact hin)
            | (obtain ⟨l, s, rfl, _⟩ := hq; exact hb.weights)
            | (obtain ⟨l, rfl, _⟩ := hq; exact hb.weights)
            | (obtain ⟨rfl, _⟩ := hq; exact hb.weights)
        exact key _ hord
  · rintro ⟨E, op⟩ l hl r hr
    have hm := step_reports w o ho E op
    rw [hl] at hm
    generalize hx : w.tee.reports.get (E, op) = x at hm
    cases hm with
    | same => exact hb.reports _ _ hx r hr
    | reported e _ _ _ _ _ _ ha =>
      subst e
      rcases TeeM.addReport_mem ha hr with rfl | h
      · exact ht
      · cases hx' : x with
        | none => rw [hx'] at h; simp at h
        | some l' => rw [hx'] at h; exact hb.reports _ _ (hx.trans hx') r (by simpa using h)

/-- C112: while the numbers are in range, every operation leads from every reachable world to the same world, whether it
is computed with the wrapping and saturating integers of the code or with unbounded numbers. -/
theorem C112 (hc : c.Ok) (hr : Reach c w) (hf : Spec.InRange c w) (hb : Spec.ReportBytes w) {o : Op} (ho : o.Ok c)
    (ht : Spec.Typed c o) : Mach.step c w o = step c w o ∧ Spec.ReportBytes (step c w o) := by
  refine ⟨?_, bytes_step o ho ht hb⟩
  obtain ⟨p1, p2, p3, p4⟩ := hf.parts
  have hi := hr.inv hc
  cases o with
  | call g x =>
    show orSame w _ = orSame w _
    rw [C112_call hc hr hf hb ht g]
  | hookAuc => exact Mach.aucHook_eq (by rw [← owed_same]; exact hf.owed)
  | hookRent =>
    exact Mach.rentHook_eq (fun n k hk => ⟨(hi.rent.q.con n k hk).period.2, fun s hs => ((hi.rent.q.con n k hk).started s hs).2⟩)
      (by omega)
  | tick => simp only [Mach.step, step, Mach.add32_eq p4]
  | _ => rfl

/-- C112, for histories: as long as the chain computed with machine integers stays in range, it is the chain computed with
unbounded numbers, so that every other theorem applies to it. -/
theorem C112_run (hc : c.Ok) (hr : Reach c w) (hb : Spec.ReportBytes w) {l : List Op} (ho : ∀ o ∈ l, o.Ok c ∧ Spec.Typed c o)
    (hf : ∀ l', l' <+: l → Spec.InRange c (Mach.run c w l')) : Mach.run c w l = run c w l ∧ Reach c (Mach.run c w l) := by
  induction l generalizing w with
  | nil => exact ⟨rfl, hr⟩
  | cons o t ih =>
    obtain ⟨h1, h2⟩ := ho o (by simp)
    obtain ⟨e, hb'⟩ := C112 hc hr (hf [] (List.nil_prefix)) hb h1 h2
    show Mach.run c (Mach.step c w o) t = run c (step c w o) t ∧ Reach c (Mach.run c (Mach.step c w o) t)
    rw [e]
    refine ih (hr.step o h1) hb' (fun o' ho' => ho o' (by simp [ho'])) fun l' hl => ?_
    have := hf (o :: l') (by simpa using hl)
    have e2 : Mach.run c w (o :: l') = Mach.run c (step c w o) l' := by rw [← e]; rfl
    rw [← e2]; exact this

/-- The block number and the number of operators are within the range of their types, and the auctions' account covers what
they owe (which C20 shows to be so unless a payout was aborted): then everything is in range. -/
theorem C112_covered (hr : Reach c w) (hb : Spec.horizon c w < U32MAX) (hs : Spec.Covered c 0 w)
    (hd : w.tee.data.card ≤ U32MAX) : Spec.InRange c w := ⟨hb, (C20_fits hr hs).1, hd⟩

/-! ## the limits are needed -/

theorem reach_later (hr : Reach c w) (k : Nat) : Reach c { w with now := w.now + k } := by
  induction k with
  | zero => exact hr
  | succ k ih => exact ih.step .tick trivial

/-- Account 1 offers NFT 0 for rent. -/
abbrev offerNft : Op := Demo.by_ 1 (.rent (.create 0 (.fixed 10) (.auto none) true (.tokens 100) .none .none))

/-- Beyond the range there is a difference: at the last block number an offer to rent, which should stand for 20 blocks,
is already over, because `now + 20` wraps around; the next run of the hook removes it. -/
theorem C112_limit : ∃ w, Reach Demo.cfg w ∧ w.now = U32MAX ∧ Spec.ReportBytes w ∧ offerNft.Ok Demo.cfg ∧ Spec.Typed Demo.cfg offerNft ∧
    (Mach.run Demo.cfg w [offerNft]).rent.contracts.get 0 ≠ none ∧
    (Mach.run Demo.cfg w [offerNft, .hookRent]).rent.contracts.get 0 = none ∧
    (run Demo.cfg w [offerNft, .hookRent]).rent.contracts.get 0 ≠ none := by
  refine ⟨{ Demo.at_ [Demo.mint1] with now := (Demo.at_ [Demo.mint1]).now + (U32MAX - (Demo.at_ [Demo.mint1]).now) },
    reach_later (Demo.reach _ (by decide)) _, by decide, ⟨⟨by decide, by decide, by decide, by decide, by decide⟩, ?_⟩,
    by decide, trivial, by decide, by decide, by decide⟩
  intro k l h
  exact absurd h (by rw [show (Demo.at_ [Demo.mint1]).tee.reports = .empty from rfl]; simp)

/-- A history with a rental, a transmission, an auction, enclaves and a report. -/
def Demo.machRun : List Op :=
  [Demo.mint1, offerNft, Demo.by_ 2 (.rent (.rent 0 0)), .tick, .hookRent, Demo.by_ 2 (.rent (.revoke 0)),
   Demo.by_ 1 (.tr (.set 0 3 (.onConsentAtBlock [2, 4] 1 9) .anytime)), Demo.by_ 2 (.tr (.addConsent 0)), .hookAuc,
   Demo.by_ 8 (.tee (.register 18 [1])), .call .root (.root (.tee (.createCluster .pub))), .era 5,
   .call .root (.root (.tee (.assign 8 0 0))), .call .root (.root (.tee (.registerServer ⟨7, .pub⟩))),
   Demo.by_ 7 (.tee (.submitReport 8 ⟨⟨90, 80, 70, 60, 50⟩, 7⟩))]

theorem Demo.bytes0 : Spec.ReportBytes Demo.w0 :=
  ⟨⟨by decide, by decide, by decide, by decide, by decide⟩, fun k l h => by
    exact absurd h (by rw [show Demo.w0.tee.reports = .empty from rfl]; simp)⟩

set_option maxRecDepth 100000 in
example : Mach.run Demo.cfg Demo.w0 Demo.machRun = run Demo.cfg Demo.w0 Demo.machRun ∧
    (Demo.at_ Demo.machRun).tee.reports.get (4, 8) = some [⟨⟨90, 80, 70, 60, 50⟩, 7⟩] ∧
    (Demo.at_ Demo.machRun).tr.queue = [(0, 9)] := by
  refine ⟨(C112_run Demo.cfg_ok (.init Demo.genesis) Demo.bytes0 (fun o ho => ⟨?_, ?_⟩) fun l' h => ?_).1, by decide, by decide⟩
  · revert o; decide
  · revert o
    simp [Demo.machRun, Spec.Typed, Spec.TypedCall, Spec.ByteParams, Demo.by_, U32MAX, Demo.cfg]
  · have : ∀ l ∈ Demo.machRun.inits, Spec.horizon Demo.cfg (Mach.run Demo.cfg Demo.w0 l) < U32MAX ∧
        Spec.owed (Mach.run Demo.cfg Demo.w0 l) ≤ U128MAX ∧ (Mach.run Demo.cfg Demo.w0 l).tee.data.card ≤ U32MAX := by decide
    obtain ⟨h1, h2, h3⟩ := this l' ((List.mem_inits _ _).2 h)
    exact ⟨h1, h2, h3⟩

import Verif.Proofs.Events
import Verif.Proofs.Due
/-
What one operation does to transmissions.
-/
variable {c : Cfg} {w w' : World} {a : AccountId}

namespace TrM

/-- the entries one run of the hook serves -/
def served (c : Cfg) (w : World) : Queue := Queue.due w.now (max 1 c.trActions) w.tr.queue

/-- effect of serving the entries `L` -/
structure Served (w w' : World) (L : Queue) : Prop where
  evs : w'.evs = (L.map fun x => Ev.transmitted x.1).reverse ++ w.evs
  on : ∀ n ∈ Queue.ids L, ∃ t d, w.tr.trans.get n = some t ∧ w.nfts.get n = some d ∧
    w'.tr.trans.get n = none ∧
    w'.nfts.get n = some { d with owner := t.recipient, st := { d.st with transmission := false } }
  off : ∀ n, n ∉ Queue.ids L → w'.tr.trans.get n = w.tr.trans.get n ∧ w'.nfts.get n = w.nfts.get n

theorem loop_exact (q : Queue) (w : World) (i : Nat) (hq : q.WF)
    (hx : ∀ n ∈ Queue.ids q, ∃ t d, w.tr.trans.get n = some t ∧ w.nfts.get n = some d) :
    Served w (hookLoop c w q i).1 (Queue.due w.now (max 1 (c.trActions - i)) q) ∧
    (hookLoop c w q i).2.1 = q.drop (Queue.due w.now (max 1 (c.trActions - i)) q).length ∧
    (hookLoop c w q i).2.2 = i + (Queue.due w.now (max 1 (c.trActions - i)) q).length := by
  induction q generalizing w i with
  | nil =>
    rw [Queue.due_nil]
    exact ⟨⟨by simp [hookLoop], by simp [Queue.ids], fun _ _ => ⟨rfl, rfl⟩⟩, rfl, rfl⟩
  | cons x t ih =>
    obtain ⟨n, b⟩ := x
    obtain ⟨k, hk⟩ : ∃ k, max 1 (c.trActions - i) = k + 1 := ⟨max 1 (c.trActions - i) - 1, by omega⟩
    rw [hk]
    simp only [hookLoop, Queue.due]
    split
    · obtain ⟨y, d, hy, hd⟩ := hx n (by simp [Queue.ids])
      obtain ⟨d', hd', h1⟩ := hookOne_succeeds hy (by rw [hd]; simp)
      rw [hd] at hd'; simp at hd'; subst hd'
      rw [h1]
      simp only [if_true]
      set w1 : World := { w with
        nfts := w.nfts.insert n { d with owner := y.recipient, st := { d.st with transmission := false } }
        tr := { w.tr with trans := w.tr.trans.erase n }
        evs := .transmitted n :: w.evs } with hw1
      have hnt : n ∉ Queue.ids t := hq.head
      have hone : Served w w1 [(n, b)] := by
        refine ⟨rfl, ?_, ?_⟩
        · intro m hm
          simp [Queue.ids] at hm; subst hm
          exact ⟨y, d, hy, hd, by simp [hw1], by simp [hw1]⟩
        · intro m hm
          simp [Queue.ids] at hm
          simp [hw1, FMap.get_insert, FMap.get_erase, hm]
      split
      · have : k = 0 := by omega
        subst this
        simp only [Queue.due, List.length_singleton, List.drop_succ_cons, List.drop_zero]
        exact ⟨hone, trivial, trivial⟩
      · have hk' : max 1 (c.trActions - (i + 1)) = k := by omega
        have := ih w1 (i + 1) hq.tail (by
          intro m hm
          obtain ⟨t', d', h2, h3⟩ := hx m (by simp [Queue.ids] at hm ⊢; exact Or.inr hm)
          have : m ≠ n := by rintro rfl; exact hnt hm
          exact ⟨t', d', by simp [hw1, FMap.get_erase, this, h2], by simp [hw1, FMap.get_insert, this, h3]⟩)
        rw [hk'] at this
        have e : w1.now = w.now := rfl
        rw [e] at this
        obtain ⟨⟨g1, g2, g3⟩, g4, g5⟩ := this
        have hnL : n ∉ Queue.ids (Queue.due w.now k t) := by
          intro hm
          obtain ⟨b', hb'⟩ := Queue.mem_ids.1 hm
          exact hnt (Queue.mem_ids.2 ⟨b', (Queue.mem_due hb').1⟩)
        refine ⟨⟨?_, ?_, ?_⟩, ?_, ?_⟩
        · rw [g1]; simp [hw1]
        · intro m hm
          rcases eq_or_ne m n with rfl | hmn
          · obtain ⟨e1, e2⟩ := g3 m hnL
            obtain ⟨t', d', p1, p2, p3, p4⟩ := hone.on m (by simp [Queue.ids])
            exact ⟨t', d', p1, p2, by rw [e1, p3], by rw [e2, p4]⟩
          · have : m ∈ Queue.ids (Queue.due w.now k t) := by
              simp [Queue.ids, hmn] at hm; simpa [Queue.ids] using hm
            obtain ⟨t', d', p1, p2, p3, p4⟩ := g2 m this
            obtain ⟨e1, e2⟩ := hone.off m (by simpa [Queue.ids] using hmn)
            exact ⟨t', d', by rw [← e1, p1], by rw [← e2, p2], p3, p4⟩
        · intro m hm
          have h1 : m ≠ n ∧ m ∉ Queue.ids (Queue.due w.now k t) := by
            simpa [Queue.ids] using hm
          obtain ⟨e1, e2⟩ := hone.off m (by simpa [Queue.ids] using h1.1)
          obtain ⟨f1, f2⟩ := g3 m h1.2
          exact ⟨by rw [f1, e1], by rw [f2, e2]⟩
        · rw [g4]; simp
        · rw [g5]; simp; omega
    · exact ⟨⟨by simp, by simp [Queue.ids], fun _ _ => ⟨rfl, rfl⟩⟩, by simp, by simp⟩

/-- The hook serves exactly the due entries at the front, at most `max 1 ActionsInBlockLimit`. -/
theorem hook_exact (h : TrInv c w.tr) (hg : ∀ n, Good c (slice w n)) :
    Served w (hook c w) (served c w) ∧
    (hook c w).tr.queue = w.tr.queue.drop (served c w).length := by
  obtain ⟨h1, h2, h3⟩ := loop_exact (c := c) w.tr.queue w 0 h.wf (by
    intro n hn
    obtain ⟨b, hb⟩ := Queue.mem_ids.1 hn
    obtain ⟨t, ht, _⟩ := h.inQ n b hb
    cases hd : w.nfts.get n with
    | some d => exact ⟨t, d, ht, rfl⟩
    | none =>
      have := (hg n).gone hd
      have : w.tr.trans.get n = none := congrArg Slice.tr this
      rw [ht] at this; simp at this)
  rw [Nat.sub_zero] at h1 h2 h3
  have hh := hookLoop_frame (c := c) w.tr.queue w 0
  unfold hook served
  dsimp only
  split
  · exact ⟨⟨h1.evs, h1.on, h1.off⟩, h2⟩
  · rename_i hk
    have : (Queue.due w.now (max 1 c.trActions) w.tr.queue).length = 0 := by omega
    have hz := List.length_eq_zero_iff.1 this
    refine ⟨h1, ?_⟩
    rw [hz, hh]; simp

end TrM

/-- Other pallets leave an NFT in transmission where it is. -/
theorem SliceStep.tr_stays {now off k} {s s' : Slice} {x : Transmission}
    (h1 : k ≠ .hookTr) (h2 : ∀ b, k ≠ .signed .tr b)
    (hg : Good c s) (hx : s.tr = some x) (h : SliceStep c now off k s s') :
    s'.tr = some x ∧ ∀ d, s.nft = some d → ∃ d', s'.nft = some d' ∧ d'.owner = d.owner := by
  obtain ⟨d, hd⟩ := hg.some_of (fun e => by rw [e] at hx; simp [Slice.blank] at hx)
  have g := hg.nft d hd
  have ht := g.trans.2 (by rw [hx]; simp)
  have e := g.exT ht
  have hl : d.st.listed = false := by
    cases e : d.st.listed
    · rfl
    · have := (g.exL e).2.1; rw [ht] at this; simp at this
  have hr : d.st.rented = false := by
    cases e : d.st.rented
    · rfl
    · have := (g.exR e).1; rw [ht] at this; simp at this
  have hs : s.sale = none ∧ s.auc = none ∧ s.con = none := by
    have h1 := g.listed; have h3 := g.rented
    rw [hl] at h1; rw [hr] at h3
    simp at h1 h3
    grind
  have hv : RentM.valid d.st = false := by simp [RentM.valid, ht]
  cases h <;> grind

theorem SliceRel.tr_stays {now off k} {s s' : Slice} {x : Transmission} (hk : k.Ok c)
    (h1 : k ≠ .hookTr) (h2 : ∀ b, k ≠ .signed .tr b)
    (hg : Good c s) (hx : s.tr = some x) (h : SliceRel c now off k s s') :
    s'.tr = some x ∧ ∀ d, s.nft = some d → ∃ d', s'.nft = some d' ∧ d'.owner = d.owner := by
  induction h with
  | refl => exact ⟨hx, fun d hd => ⟨d, hd, rfl⟩⟩
  | tail h0 h ih =>
    obtain ⟨h3, h4⟩ := h.tr_stays h1 h2 (hg.rel hk h0) ih.1
    refine ⟨h3, fun d hd => ?_⟩
    obtain ⟨d1, e1, e2⟩ := ih.2 d hd
    obtain ⟨d2, f1, f2⟩ := h4 d1 e1
    exact ⟨d2, f1, f2.trans e2⟩

/-- Either a successful call of the transmission pallet, or its hook, or nothing happens to
transmissions and NFTs in transmission. -/
theorem step_tr_case (hc : c.Ok) (hr : Reach c w) (o : Op) (ho : o.Ok c) :
    (∃ a x, o = .call (.signed a) (.tr x) ∧ ¬ c.pot a ∧ TrM.call c w a x = .ok (step c w o)) ∨
    o = .hookTr ∨
    ((step c w o).tr.trans = w.tr.trans ∧ (step c w o).tr.consents = w.tr.consents ∧
      (step c w o).tr.queue = w.tr.queue ∧
      (step c w o = w ∨ ∀ a x, o ≠ .call (.signed a) (.tr x)) ∧
      ∀ n x d, w.tr.trans.get n = some x → w.nfts.get n = some d →
        ∃ d', (step c w o).nfts.get n = some d' ∧ d'.owner = d.owner) := by
  have hi := hr.inv hc
  have hb := hr.micro.balInv
  have stay : ∀ (k : Kind), k.Ok c → k ≠ .hookTr → (∀ b, k ≠ .signed .tr b) → ∀ w' : World,
      (∀ n, SliceRel c w.now (offered w n) k (slice w n) (slice w' n)) →
      ∀ n x d, w.tr.trans.get n = some x → w.nfts.get n = some d →
        ∃ d', w'.nfts.get n = some d' ∧ d'.owner = d.owner := by
    intro k hk h1 h2 w' h n x d hx hd
    exact (SliceRel.tr_stays hk h1 h2 (hi.good n) hx (h n)).2 d hd
  generalize hw' : step c w o = w'
  have key := step_case w o ho
  rw [hw'] at key
  cases key with
  | nft x ha h =>
    have e := NftM.call_frame h
    exact Or.inr (Or.inr ⟨congrArg (·.tr.trans) e, congrArg (·.tr.consents) e, congrArg (·.tr.queue) e,
      Or.inr (by simp), stay (.signed .nft _) ha (by simp) (by simp) _
        fun n => NftM.call_slice h (hi.fresh _ (Nat.le_refl _)) n⟩)
  | mkt x ha h =>
    have e := MktM.call_frame h
    exact Or.inr (Or.inr ⟨congrArg (·.tr.trans) e, congrArg (·.tr.consents) e, congrArg (·.tr.queue) e,
      Or.inr (by simp), stay (.signed .mkt _) ha (by simp) (by simp) _ fun n => MktM.call_slice h n⟩)
  | auc x ha h =>
    have e := AucM.call_frame h
    exact Or.inr (Or.inr ⟨congrArg (·.tr.trans) e, congrArg (·.tr.consents) e, congrArg (·.tr.queue) e,
      Or.inr (by simp), stay (.signed .auc _) ha (by simp) (by simp) _ fun n => AucM.call_slice h n⟩)
  | rent x ha h =>
    have e := RentM.call_frame h
    exact Or.inr (Or.inr ⟨congrArg (·.tr.trans) e, congrArg (·.tr.consents) e, congrArg (·.tr.queue) e,
      Or.inr (by simp), stay (.rent _) ha (by simp) (by simp) _ fun n => RentM.call_slice h hi.rent.dep.ok n⟩)
  | tr x ha h => exact Or.inl ⟨_, x, rfl, ha, h⟩
  | hookAuc =>
    have e := AucM.hook_frame (c := c) w
    exact Or.inr (Or.inr ⟨congrArg (·.tr.trans) e, congrArg (·.tr.consents) e, congrArg (·.tr.queue) e,
      Or.inr (by simp), stay .hookAuc trivial (by simp) (by simp) _ fun n => AucM.hook_slice w n⟩)
  | hookRent =>
    have e := RentM.hook_frame (c := c) w
    exact Or.inr (Or.inr ⟨congrArg (·.tr.trans) e, congrArg (·.tr.consents) e, congrArg (·.tr.queue) e,
      Or.inr (by simp), stay .hookRent trivial (by simp) (by simp) _ fun n => (hi.rent.hook hb).2 n⟩)
  | hookTr => exact Or.inr (Or.inl rfl)
  | quiet _ hk hq =>
    have e := hq.tr
    exact Or.inr (Or.inr ⟨congrArg (·.trans) e, congrArg (·.consents) e, congrArg (·.queue) e,
      hk.imp id (by rintro h a x rfl; simp [Op.kind] at h), fun n x d _ hd => ⟨d, by rw [hq.nfts, hd], rfl⟩⟩)

namespace TrM

/-- the NFT a call is about -/
def Call.target : Call → NFTId
  | .set n _ _ _ => n
  | .remove n => n
  | .resetTimer n _ => n
  | .addConsent n => n

theorem call_other {x n} (h : call c w a x = .ok w') (hn : n ≠ x.target) :
    w'.tr.trans.get n = w.tr.trans.get n ∧ w'.nfts.get n = w.nfts.get n ∧
    w'.tr.consents.get n = w.tr.consents.get n := by
  cases x with
  | set m r p k =>
    simp only [call, set, Call.target] at h hn
    inv_ok at h
    obtain ⟨d, q, b, h0, hd, ho, h1, h2, h3, h4, h5, h6, h7, h8, _, _, _, _, _, _, _, _, _, rfl⟩ := h
    simp [World.ev, World.putNft, World.putBal, FMap.get_insert, hn]
  | remove m =>
    simp only [call, remove, Call.target] at h hn
    inv_ok at h
    obtain ⟨d, t, hd, ho, h1, ht, h2, rfl⟩ := h
    cases t.protocol <;> simp [World.putNft, cleanup, kind, FMap.get_insert, FMap.get_erase, hn]
  | resetTimer m b =>
    simp only [call, resetTimer, Call.target] at h hn
    inv_ok at h
    obtain ⟨d, t, q, hd, ho, h1, ht, h2, h3, h4, h5, rfl⟩ := h
    simp [FMap.get_insert, hn]
  | addConsent m =>
    simp only [call, Call.target] at h hn
    obtain ⟨d, t, x, hd, h1, ht, hx, h2, h3, h4, h5, h⟩ := addConsent_ok h
    rcases h with ⟨h6, rfl⟩ | ⟨h6, _, rfl⟩ | ⟨h6, e, q, _, _, _, _, rfl⟩ <;>
      simp [FMap.get_insert, FMap.get_erase, hn]

end TrM

/-- What can happen to an NFT in transmission in one operation. -/
inductive TrMove (c : Cfg) (w : World) (n : NFTId) (x : Transmission) (d : NFTData) (w' : World) :
    Op → Prop where
  | stay {o : Op} {d' : NFTData} : w'.tr.trans.get n = some x → w'.nfts.get n = some d' →
      d'.owner = d.owner → TrMove c w n x d w' o
  | reset {b : Block} : TrM.canReset x.protocol = true → w.now < b →
      w'.tr.trans.get n = some { x with protocol := .atBlockWithReset b } →
      w'.nfts.get n = some d →
      TrMove c w n x d w' (.call (.signed d.owner) (.tr (.resetTimer n b)))
  | removed : TrM.cancellable w.now x.cancellation = true → w'.tr.trans.get n = none →
      w'.nfts.get n = some { d with st := { d.st with transmission := false } } →
      TrMove c w n x d w' (.call (.signed d.owner) (.tr (.remove n)))
  | hook {b : Block} : (n, b) ∈ w.tr.queue → b ≤ w.now → TrM.endBlock x.protocol = some b →
      w'.tr.trans.get n = none →
      w'.nfts.get n = some { d with owner := x.recipient, st := { d.st with transmission := false } } →
      TrMove c w n x d w' .hookTr
  | consent {a : AccountId} {y : List AccountId × Nat} : TrM.consentData x.protocol = some y →
      n ∉ Queue.ids w.tr.queue → a ∈ y.1 → a ∉ (w.tr.consents.get n).getD [] →
      y.2 ≤ ((w.tr.consents.get n).getD []).length + 1 →
      (∀ e, TrM.endBlock x.protocol = some e → e ≤ w.now) →
      w'.evs = .transmitted n :: .consentAdded n a :: w.evs →
      w'.tr.trans.get n = none →
      w'.nfts.get n = some { d with owner := x.recipient, st := { d.st with transmission := false } } →
      TrMove c w n x d w' (.call (.signed a) (.tr (.addConsent n)))

/-- an accepted consent finds the NFT not queued -/
theorem TrM.TrInv.consent_not_queued {n} (h : TrInv c w.tr) (hx : addConsent c w a n = .ok w') :
    n ∉ Queue.ids w.tr.queue := by
  obtain ⟨d, t, x, hd, h1, ht, hcd, h2, h3, h4, h5, h6⟩ := addConsent_ok hx
  intro hm
  cases hp : t.protocol with
  | onConsentAtBlock l k b =>
    exact Queue.find_none.1 (h2 (by rw [hp]; rfl)) hm
  | onConsent l k =>
    obtain ⟨b, hb⟩ := Queue.mem_ids.1 hm
    obtain ⟨x, hx, hy, _⟩ := h.inQ n b hb
    rw [ht] at hx; simp at hx; subst hx; rw [hp] at hy; simp [endBlock] at hy
  | atBlock b => rw [hp] at hcd; simp [consentData] at hcd
  | atBlockWithReset b => rw [hp] at hcd; simp [consentData] at hcd

theorem step_tr_move (hc : c.Ok) (hr : Reach c w) (o : Op) (ho : o.Ok c) {n : NFTId}
    {x : Transmission} {d : NFTData} (hx : w.tr.trans.get n = some x) (hd : w.nfts.get n = some d) :
    TrMove c w n x d (step c w o) o := by
  have hi := hr.inv hc
  rcases step_tr_case hc hr o ho with ⟨a, y, rfl, ha, h⟩ | rfl | ⟨h1, _, _, _, h4⟩
  · by_cases hn : n = y.target
    · generalize step c w (.call (.signed a) (.tr y)) = w' at h ⊢
      cases y with
      | set m r p k =>
        simp only [TrM.Call.target] at hn; subst hn
        simp only [TrM.call, TrM.set] at h
        inv_ok at h
        obtain ⟨d', q, b, h0, hd', ho, h1, h2, h3, h4, h5, h6, h7, h8, _⟩ := h
        rw [hd] at hd'; simp at hd'; subst hd'
        have := ((hi.good n).nft d hd).trans.2 (by show w.tr.trans.get n ≠ none; rw [hx]; simp)
        rw [h8] at this; simp at this
      | remove m =>
        simp only [TrM.Call.target] at hn; subst hn
        simp only [TrM.call, TrM.remove] at h
        inv_ok at h
        obtain ⟨d', t, hd', ho, h1, ht, h2, rfl⟩ := h
        rw [hd] at hd'; simp at hd'; subst hd'
        rw [hx] at ht; simp at ht; subst ht
        subst ho
        refine .removed h2 ?_ ?_
        · cases x.protocol <;> simp [TrM.cleanup, TrM.kind]
        · simp [World.putNft]
      | resetTimer m b =>
        simp only [TrM.Call.target] at hn; subst hn
        simp only [TrM.call, TrM.resetTimer] at h
        inv_ok at h
        obtain ⟨d', t, q, hd', ho, h1, ht, h2, h3, h4, h5, rfl⟩ := h
        rw [hd] at hd'; simp at hd'; subst hd'
        rw [hx] at ht; simp at ht; subst ht
        subst ho
        exact .reset h2 h3 (by simp) hd
      | addConsent m =>
        simp only [TrM.Call.target] at hn; subst hn
        simp only [TrM.call] at h
        have hq := hi.tr.consent_not_queued h
        obtain ⟨d', t, y, hd', h1, ht, hy, h2, h3, h4, h5, h⟩ := TrM.addConsent_ok h
        rw [hd] at hd'; simp at hd'; subst hd'
        rw [hx] at ht; simp at ht; subst ht
        rcases h with ⟨h6, rfl⟩ | ⟨h6, h7, rfl⟩ | ⟨h6, e, q, _, _, _, _, rfl⟩
        · exact .stay hx hd rfl
        · exact .consent hy hq h3 h4 h6 h7 rfl (by simp) (by simp)
        · exact .stay hx hd rfl
    · obtain ⟨h1, h2, _⟩ := TrM.call_other h hn
      exact .stay (h1.trans hx) (h2.trans hd) rfl
  · obtain ⟨h1, _⟩ := TrM.hook_exact (c := c) hi.tr hi.good
    by_cases hn : n ∈ Queue.ids (TrM.served c w)
    · obtain ⟨t, d', e1, e2, e3, e4⟩ := h1.on n hn
      rw [hx] at e1; simp at e1; subst e1
      rw [hd] at e2; simp at e2; subst e2
      obtain ⟨b, hb⟩ := Queue.mem_ids.1 hn
      obtain ⟨hb1, hb2⟩ := Queue.mem_due hb
      obtain ⟨t, ht, he, _⟩ := hi.tr.inQ n b hb1
      rw [hx] at ht; simp at ht; subst ht
      exact .hook hb1 hb2 he e3 e4
    · obtain ⟨e1, e2⟩ := h1.off n hn
      exact .stay (e1.trans hx) (e2.trans hd) rfl
  · obtain ⟨d', e1, e2⟩ := h4 n x d hx hd
    exact .stay (by rw [h1]; exact hx) e1 e2

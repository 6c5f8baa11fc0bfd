import Verif.Proofs.Apply
import Verif.Props.Demo
/-
C138: the order in which offers to rent an NFT arrive does not matter.
-/
open Spec

variable {c : Cfg} {w : World} {n : NFTId} {cr : Block}

/-- all offers of `l` go through: they are queued in the order made, and only the event log changes besides -/
private theorem queue (l : List AccountId) : ∀ (o : FMap NFTId (List AccountId)) (e : List Ev),
    (∀ a ∈ l, mayApply c w n cr a) → l.Nodup → (∀ a ∈ l, a ∉ (o.get n).getD []) →
    ((o.get n).getD []).length + l.length ≤ c.rentAccounts →
    ∃ o', run c (Board.world o e w) (applying n cr l) =
        Board.world o' ((l.map (Ev.offerMade n ·)).reverse ++ e) w ∧
      (o'.get n).getD [] = (o.get n).getD [] ++ l ∧ (∀ m, m ≠ n → o'.get m = o.get m) ∧
      o'.erase n = o.erase n ∧ (l ≠ [] → ∃ s, o'.get n = some s) := by
  induction l with
  | nil => intro o e _ _ _ _; exact ⟨o, rfl, by simp, fun _ _ => rfl, rfl, by simp⟩
  | cons a l ih =>
    intro o e hl hd ho hr
    obtain ⟨w', hw⟩ := hl a (by simp)
    have hk := RentM.makeOffer_board hw o e (ho a (by simp)) (by simp at hr; omega)
    have hs : step c (Board.world o e w) (.call (.signed a) (.rent (.makeOffer n cr))) =
        Board.world (o.insert n ((o.get n).getD [] ++ [a])) (.offerMade n a :: e) w := by
      show orSame _ (RentM.makeOffer c (Board.world o e w) a n cr) = _
      rw [hk]
      rfl
    have hg : ((o.insert n ((o.get n).getD [] ++ [a])).get n).getD [] = (o.get n).getD [] ++ [a] := by
      simp [FMap.get_insert]
    obtain ⟨o', h1, h2, h3, h4, h5⟩ := ih (o.insert n ((o.get n).getD [] ++ [a])) (.offerMade n a :: e)
      (fun b hb => hl b (by simp [hb])) (List.nodup_cons.1 hd).2
      (fun b hb => by
        rw [hg]
        simp only [List.mem_append, List.mem_singleton, not_or]
        exact ⟨ho b (by simp [hb]), fun e => (List.nodup_cons.1 hd).1 (e ▸ hb)⟩)
      (by rw [hg]; simp at hr ⊢; omega)
    refine ⟨o', ?_, ?_, ?_, ?_, ?_⟩
    · show run c (step c _ _) _ = _
      rw [hs]
      simpa [applying] using h1
    · rw [h2, hg]; simp
    · intro m hm; rw [h3 m hm]; simp [FMap.get_insert, hm]
    · rw [h4, FMap.erase_insert']
    · intro _
      by_cases hl' : l = []
      · subst hl'
        have : o' = o.insert n ((o.get n).getD [] ++ [a]) := congrArg (fun v => v.rent.offers) h1.symm
        subst this
        exact ⟨_, by simp [FMap.get_insert]; rfl⟩
      · exact h5 hl'

private theorem unlisted {a : AccountId} (h : mayApply c w n cr a) : a ∉ applicants w n := by
  obtain ⟨w', h⟩ := h
  replace h : RentM.makeOffer c w a n cr = .ok w' := h
  unfold RentM.makeOffer at h
  obtain ⟨_, h, _⟩ := Exec.bind_ok.1 h
  exact Exec.require_ok.1 h

/-- **C138, the offers**: if each account of `l` could make its offer now, if they are different accounts, and if
there is room for all of them, then all the offers are accepted, in whatever order they arrive: they are listed in
that order after the offers already there, they are announced in that order, and nothing else changes. -/
theorem C138_offers {l : List AccountId} (h : ∀ a ∈ l, mayApply c w n cr a) (hd : l.Nodup)
    (hr : (applicants w n).length + l.length ≤ c.rentAccounts) :
    applicants (run c w (applying n cr l)) n = applicants w n ++ l ∧
    (∀ m, m ≠ n → applicants (run c w (applying n cr l)) m = applicants w m) ∧
    (run c w (applying n cr l)).evs = (l.map (Ev.offerMade n ·)).reverse ++ w.evs ∧
    { run c w (applying n cr l) with
      evs := w.evs, rent := { (run c w (applying n cr l)).rent with offers := w.rent.offers } } = w := by
  obtain ⟨o, h1, h2, h3, _⟩ := queue l w.rent.offers w.evs h hd (fun a ha => unlisted (h a ha)) hr
  have hw : Board.world w.rent.offers w.evs w = w := rfl
  rw [hw] at h1
  rw [h1]
  exact ⟨h2, fun m hm => congrArg (·.getD []) (h3 m hm), rfl, rfl⟩

/-- **C138, the choice**: after the same offers in two different orders, the owner of the contract (or anyone) can
accept exactly the same of them, with the same refusals, and the chain is then the same but for its event log. -/
theorem C138_accept {l l' : List AccountId} (hp : l.Perm l') (h : ∀ a ∈ l, mayApply c w n cr a) (hd : l.Nodup)
    (hr : (applicants w n).length + l.length ≤ c.rentAccounts) (who b : AccountId) :
    (dispatch c (.rent (.acceptOffer n b)) (.signed who) (run c w (applying n cr l))).map muted =
    (dispatch c (.rent (.acceptOffer n b)) (.signed who) (run c w (applying n cr l'))).map muted := by
  have h' : ∀ a ∈ l', mayApply c w n cr a := fun a ha => h a (hp.mem_iff.2 ha)
  have hu := fun a ha => unlisted (h a ha)
  have hu' := fun a ha => unlisted (h' a ha)
  obtain ⟨o, h1, h2, _, h4, h5⟩ := queue l w.rent.offers w.evs h hd hu hr
  obtain ⟨o', g1, g2, _, g4, g5⟩ := queue l' w.rent.offers w.evs h' (hp.nodup_iff.1 hd) hu'
    (by rw [← hp.length_eq]; exact hr)
  have hw : Board.world w.rent.offers w.evs w = w := rfl
  rw [hw] at h1 g1
  rw [h1, g1]
  by_cases hl : l = []
  · subst hl
    have : l' = [] := hp.symm.eq_nil
    subst this
    rw [← h1, ← g1]
  · have hl' : l' ≠ [] := fun e => hl (by subst e; exact hp.eq_nil)
    obtain ⟨s, hs⟩ := h5 hl
    obtain ⟨s', hs'⟩ := g5 hl'
    rw [hs] at h2
    rw [hs'] at g2
    simp only [Option.getD_some] at h2 g2
    have hm : b ∈ s ↔ b ∈ s' := by rw [h2, g2]; simp [hp.mem_iff]
    show Except.map muted (RentM.acceptOffer c (Board.world o _ w) who n b) =
      Except.map muted (RentM.acceptOffer c (Board.world o' _ w) who n b)
    have e1 : ∀ o e, (Board.world o e w).rent.contracts = w.rent.contracts := fun _ _ => rfl
    have e2 : ∀ o e, (Board.world o e w).rent.offers = o := fun _ _ => rfl
    simp only [RentM.acceptOffer, e1, e2, hs, hs', Board.start, Sym.map_bind', h4, g4, hm]
    congr 1
    funext k
    show (require _ _ >>= _) = (require _ _ >>= _)
    congr 1
    funext _
    have hq : require (b ∈ s) "NoOfferFromThisAddress" = require (b ∈ s') "NoOfferFromThisAddress" := by
      by_cases hb : b ∈ s
      · simp [require, hb, hm.1 hb]
      · simp [require, hb, mt hm.2 hb]
    rw [hq]
    congr 1
    funext _
    cases RentM.startContract c w n k b <;> rfl

/-- account 1 offers its NFT for rent, choosing among those who apply -/
abbrev choosy : List Op :=
  [Demo.mint1, Demo.by_ 1 (.rent (.create 0 (.fixed 10) (.manual none) true (.tokens 100) (.fixed 200) (.fixed 300)))]

/-- three accounts may apply, and there is room -/
theorem choosy_may : ∀ a ∈ [2, 3, 4], mayApply Demo.cfg (Demo.at_ choosy) 0 0 a := by
  intro a ha
  simp only [List.mem_cons, List.not_mem_nil, or_false] at ha
  rcases ha with rfl | rfl | rfl <;> exact ⟨_, rfl⟩

example : applicants (run Demo.cfg (Demo.at_ choosy) (applying 0 0 [3, 4, 2])) 0 = [3, 4, 2] :=
  (C138_offers (c := Demo.cfg) (w := Demo.at_ choosy) (n := 0) (cr := 0) (l := [3, 4, 2])
    (fun a ha => choosy_may a (by revert a; decide)) (by decide) (by decide)).1

example : (dispatch Demo.cfg (.rent (.acceptOffer 0 3)) (.signed 1)
      (run Demo.cfg (Demo.at_ choosy) (applying 0 0 [2, 3, 4]))).map muted =
    (dispatch Demo.cfg (.rent (.acceptOffer 0 3)) (.signed 1)
      (run Demo.cfg (Demo.at_ choosy) (applying 0 0 [4, 3, 2]))).map muted ∧
    ∃ w', dispatch Demo.cfg (.rent (.acceptOffer 0 3)) (.signed 1)
      (run Demo.cfg (Demo.at_ choosy) (applying 0 0 [2, 3, 4])) = .ok w' :=
  ⟨C138_accept (by decide) choosy_may (by decide) (by decide) 1 3, _, rfl⟩

/-- the example configuration with room for one offer only -/
def Demo.single : Cfg := { Demo.cfg with rentAccounts := 1 }

/-- **C138, the last place**: the room is needed. Where one place is left and two accounts could make an offer, the
one whose offer arrives first gets it. -/
theorem C138_last : ∃ (c : Cfg) (w : World), c.Ok ∧ Reach c w ∧
    mayApply c w 0 0 2 ∧ mayApply c w 0 0 3 ∧
    applicants (run c w (applying 0 0 [2, 3])) 0 = [2] ∧ applicants (run c w (applying 0 0 [3, 2])) 0 = [3] := by
  have hg : Genesis Demo.single Demo.w0 :=
    ⟨⟨Demo.genesis.bal.1, Demo.genesis.bal.2, Demo.genesis.bal.3, Demo.genesis.bal.4, Demo.genesis.bal.5⟩, rfl,
      Demo.genesis.nft, Demo.genesis.mkt, Demo.genesis.auc, Demo.genesis.rent, Demo.genesis.tr,
      Demo.genesis.tee, Demo.genesis.br, rfl, rfl⟩
  have hl : ∀ o ∈ choosy, o.Ok Demo.single :=
    fun o ho => (show o.Ok Demo.cfg → o.Ok Demo.single from by cases o <;> exact id)
      ((by decide : ∀ o ∈ choosy, o.Ok Demo.cfg) o ho)
  exact ⟨Demo.single, run Demo.single Demo.w0 choosy, by constructor <;> decide, (Reach.init hg).run _ hl,
    ⟨_, rfl⟩, ⟨_, rfl⟩, by decide +kernel, by decide +kernel⟩

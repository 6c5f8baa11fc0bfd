import Verif.Proofs.AucPay
import Verif.Proofs.Due
/-
What the auction hook does to one auction, and when all settlements succeed.
-/
variable {c : Cfg} {w w' : World} {a : AccountId}

namespace AucM

/-- every auction is about an existing NFT -/
def HasNft (w : World) : Prop := ∀ n x, w.auc.auctions.get n = some x → ∃ d, w.nfts.get n = some d

theorem HasNft.of_good (h : ∀ n, Good c (slice w n)) : HasNft w := by
  intro n x hx
  exact (h n).some_of (fun e => by
    have := congrArg Slice.auc e; simp [slice, Slice.blank, hx] at this)

theorem HasNft.pop (h : HasNft w) (hp : Pop c w w') : HasNft w' := by
  intro n x hx
  obtain ⟨d, hd⟩ := h n x (hp.sub hx)
  cases hp with
  | won => simp only [FMap.get_insert]; split <;> simp [hd]
  | noBid => simp only [FMap.get_insert]; split <;> simp [hd]
  | missed => exact ⟨d, hd⟩
  | stray => exact ⟨d, hd⟩

theorem Pop.now (h : Pop c w w') : w'.now = w.now := by cases h <;> rfl
theorem Pop.mkt (h : Pop c w w') : w'.mkt = w.mkt := by cases h <;> rfl
theorem Pop.comm (h : Pop c w w') : w'.auc.comm = w.auc.comm := by cases h <;> rfl

/-- what the hook does to the auction `x` of the NFT `d` -/
inductive HookAt (w : World) (n : NFTId) (x : Auction) (d : NFTData) (w' : World) : Prop where
  | stay : w'.auc.auctions.get n = some x → w'.nfts.get n = some d →
      (n ∈ Queue.ids w'.auc.deadlines ↔ n ∈ Queue.ids w.auc.deadlines) → HookAt w n x d w'
  | won {top : AccountId × Balance} : x.bids.getLast? = some top → x.fin ≤ w.now →
      n ∈ Queue.ids w.auc.deadlines → n ∉ Queue.ids w'.auc.deadlines →
      w'.auc.auctions.get n = none →
      w'.nfts.get n = some { d with owner := top.1, st := { d.st with listed := false } } →
      HookAt w n x d w'
  | noBid : x.bids = [] → x.fin ≤ w.now → n ∈ Queue.ids w.auc.deadlines →
      n ∉ Queue.ids w'.auc.deadlines → w'.auc.auctions.get n = none →
      w'.nfts.get n = some { d with st := { d.st with listed := false } } → HookAt w n x d w'
  | missed : x.bids ≠ [] → x.fin ≤ w.now → n ∈ Queue.ids w.auc.deadlines →
      n ∉ Queue.ids w'.auc.deadlines → w'.auc.auctions.get n = some x →
      w'.nfts.get n = some d → HookAt w n x d w'

/-- one settlement touches one NFT -/
theorem Pop.other {w w' : World} (h : Pop c w w') {n m e t}
    (hq : w.auc.deadlines = (m, e) :: t) (hn : n ≠ m) :
    w'.auc.auctions.get n = w.auc.auctions.get n ∧ w'.nfts.get n = w.nfts.get n ∧
    (n ∈ Queue.ids w'.auc.deadlines ↔ n ∈ Queue.ids w.auc.deadlines) := by
  have hids : n ∈ Queue.ids t ↔ n ∈ Queue.ids w.auc.deadlines := by
    rw [hq]; simp only [Queue.ids, List.map_cons, List.mem_cons]; simp [hn]
  cases h with
  | won hq' =>
    rw [hq] at hq'; simp at hq'; obtain ⟨⟨rfl, rfl⟩, rfl⟩ := hq'
    exact ⟨by simp [FMap.get_erase, hn], by simp [FMap.get_insert, hn], hids⟩
  | noBid hq' =>
    rw [hq] at hq'; simp at hq'; obtain ⟨⟨rfl, rfl⟩, rfl⟩ := hq'
    exact ⟨by simp [FMap.get_erase, hn], by simp [FMap.get_insert, hn], hids⟩
  | missed hq' =>
    rw [hq] at hq'; simp at hq'; obtain ⟨⟨rfl, rfl⟩, rfl⟩ := hq'
    exact ⟨rfl, rfl, hids⟩
  | stray hq' =>
    rw [hq] at hq'; simp at hq'; obtain ⟨⟨rfl, rfl⟩, rfl⟩ := hq'
    exact ⟨rfl, rfl, hids⟩

theorem Pop.head (h : Pop c w w') : ∃ n e t, w.auc.deadlines = (n, e) :: t ∧ e ≤ w.now ∧
    w'.auc.deadlines = t := by
  cases h with
  | won h1 h2 => exact ⟨_, _, _, h1, h2, rfl⟩
  | noBid h1 h2 => exact ⟨_, _, _, h1, h2, rfl⟩
  | missed h1 h2 => exact ⟨_, _, _, h1, h2, rfl⟩
  | stray h1 h2 => exact ⟨_, _, _, h1, h2, rfl⟩

/-- one settlement, at its own NFT -/
theorem Pop.at (h : Pop c w w') (hi : Inv c w) {n e t x d} (hq : w.auc.deadlines = (n, e) :: t)
    (hx : w.auc.auctions.get n = some x) (hd : w.nfts.get n = some d) :
    x.fin ≤ w.now ∧ n ∉ Queue.ids w'.auc.deadlines ∧
    ((∃ top, x.bids.getLast? = some top ∧ w'.auc.auctions.get n = none ∧
        w'.nfts.get n = some { d with owner := top.1, st := { d.st with listed := false } }) ∨
     (x.bids = [] ∧ w'.auc.auctions.get n = none ∧
        w'.nfts.get n = some { d with st := { d.st with listed := false } }) ∨
     (x.bids ≠ [] ∧ w'.auc.auctions.get n = some x ∧ w'.nfts.get n = some d)) := by
  have hwf := hi.wf
  rw [hq] at hwf
  have hh := hwf.head
  obtain ⟨x', hx', he⟩ := hi.inQ n e (by rw [hq]; simp)
  rw [hx] at hx'; simp at hx'; subst hx'
  cases h with
  | @won n' e' t' x' d' top b hq' he' hx' hd' ht =>
    rw [hq] at hq'; simp at hq'; obtain ⟨⟨rfl, rfl⟩, rfl⟩ := hq'
    rw [hx] at hx'; simp at hx'; subst hx'
    rw [hd] at hd'; simp at hd'; subst hd'
    exact ⟨by omega, hh, Or.inl ⟨top, ht, by simp, by simp⟩⟩
  | noBid hq' he' hx' hd' ht =>
    rw [hq] at hq'; simp at hq'; obtain ⟨⟨rfl, rfl⟩, rfl⟩ := hq'
    rw [hx] at hx'; simp at hx'; subst hx'
    rw [hd] at hd'; simp at hd'; subst hd'
    exact ⟨by omega, hh, Or.inr (Or.inl ⟨ht, by simp, by simp⟩)⟩
  | missed hq' he' hx' hd' ht =>
    rw [hq] at hq'; simp at hq'; obtain ⟨⟨rfl, rfl⟩, rfl⟩ := hq'
    rw [hx] at hx'; simp at hx'; subst hx'
    refine ⟨by omega, hh, Or.inr (Or.inr ⟨?_, hx, hd⟩)⟩
    intro h; rw [h] at ht; simp at ht
  | stray hq' he' h =>
    rw [hq] at hq'; simp at hq'; obtain ⟨⟨rfl, rfl⟩, rfl⟩ := hq'
    rcases h with h | h
    · rw [hx] at h; simp at h
    · rw [hd] at h; simp at h

theorem pops_at (h : Relation.ReflTransGen (Pop c) w w') (hi : Inv c w) {n x d}
    (hx : w.auc.auctions.get n = some x) (hd : w.nfts.get n = some d) :
    HookAt w n x d w' ∧ w'.now = w.now := by
  induction h with
  | refl => exact ⟨.stay hx hd Iff.rfl, rfl⟩
  | @tail w1 w2 h1 h2 ih =>
    obtain ⟨ih, hnow⟩ := ih
    have hi1 := hi.pops h1
    obtain ⟨m, e, t, hq, he, ht⟩ := h2.head
    refine ⟨?_, h2.now.trans hnow⟩
    by_cases hm : n = m
    · subst hm
      have hin : n ∈ Queue.ids w1.auc.deadlines := by rw [hq]; simp [Queue.ids]
      cases ih with
      | stay e1 e2 e3 =>
        obtain ⟨p1, p2, p3⟩ := h2.at hi1 hq e1 e2
        rw [hnow] at p1
        rcases p3 with ⟨top, q1, q2, q3⟩ | ⟨q1, q2, q3⟩ | ⟨q1, q2, q3⟩
        · exact .won q1 p1 (e3.1 hin) p2 q2 q3
        · exact .noBid q1 p1 (e3.1 hin) p2 q2 q3
        · exact .missed q1 p1 (e3.1 hin) p2 q2 q3
      | won _ _ _ h => exact absurd hin h
      | noBid _ _ _ h => exact absurd hin h
      | missed _ _ _ h => exact absurd hin h
    · obtain ⟨f1, f2, f3⟩ := h2.other hq hm
      cases ih with
      | stay e1 e2 e3 => exact .stay (f1.trans e1) (f2.trans e2) (f3.trans e3)
      | won e1 e2 e3 e4 e5 e6 => exact .won e1 e2 e3 (f3.not.2 e4) (f1.trans e5) (f2.trans e6)
      | noBid e1 e2 e3 e4 e5 e6 => exact .noBid e1 e2 e3 (f3.not.2 e4) (f1.trans e5) (f2.trans e6)
      | missed e1 e2 e3 e4 e5 e6 => exact .missed e1 e2 e3 (f3.not.2 e4) (f1.trans e5) (f2.trans e6)

/-! ## solvency over the whole hook -/

/-- whatever left the schedule is settled -/
def Settled (w w' : World) : Prop :=
  ∀ n, n ∈ Queue.ids w.auc.deadlines → n ∉ Queue.ids w'.auc.deadlines → w'.auc.auctions.get n = none

theorem Pop.ids_sub (h : Pop c w w') {n} (hn : n ∈ Queue.ids w'.auc.deadlines) :
    n ∈ Queue.ids w.auc.deadlines := by
  obtain ⟨m, e, t, hq, he, ht⟩ := h.head
  rw [hq]; rw [ht] at hn; simp only [Queue.ids, List.map_cons, List.mem_cons]; exact Or.inr hn

theorem Solvent.pops {s : Balance} (h0 : s = 0 ∨ c.ed ≤ s)
    (h : Relation.ReflTransGen (Pop c) w w') (hs : Solvent c s w) (hi : Inv c w)
    (hn : HasNft w) (hset : Settled w w') : Solvent c s w' := by
  induction h using Relation.ReflTransGen.head_induction_on with
  | refl => exact hs
  | @head w0 w1 h1 h2 ih =>
    have hi1 := hi.pop h1
    obtain ⟨m, e, t, hq, he, ht⟩ := h1.head
    have hm : m ∈ Queue.ids w0.auc.deadlines := by rw [hq]; simp [Queue.ids]
    have hm1 : m ∉ Queue.ids w1.auc.deadlines := by
      have := hi.wf; rw [hq] at this; rw [ht]; exact this.head
    refine ih ?_ hi1 (hn.pop h1) ?_
    · refine Solvent.pop h0 hs hi h1 fun n e' t' hq' _ => ?_
      rw [hq] at hq'; simp at hq'; obtain ⟨⟨rfl, rfl⟩, rfl⟩ := hq'
      cases h : w1.auc.auctions.get m with
      | none => rfl
      | some x =>
        obtain ⟨d, hd⟩ := hn.pop h1 m x h
        have hnot : m ∉ Queue.ids w'.auc.deadlines := by
          intro hin
          refine hm1 ?_
          clear ih hset
          induction h2 with
          | refl => exact hin
          | tail _ h4 ih => exact ih (h4.ids_sub hin)
        have hfin := hset m hm hnot
        rcases (pops_at h2 hi1 h hd).1 with ⟨e1, _, _⟩ | ⟨_, _, e3, _⟩ | ⟨_, _, e3, _⟩ | ⟨_, _, e3, _⟩
        · rw [e1] at hfin; simp at hfin
        · exact absurd e3 hm1
        · exact absurd e3 hm1
        · exact absurd e3 hm1
    · intro n h3 h4
      exact hset n (h1.ids_sub h3) h4

/-! ## when every settlement succeeds -/

theorem _root_.Bal.transfer_solvent' {ed : Balance} {b : Bal} {s d : AccountId} {v o : Balance}
    (hf : b.frozen s = 0) (hv : v + o ≤ b.freeOf s)
    (ho : o = 0 ∨ ed ≤ o) (hd : d = s ∨ ed ≤ b.freeOf d) :
    ∃ b', b.transfer ed s d v .allowDeath = .ok b' ∧ o ≤ b'.freeOf s := by
  by_cases e : s = d
  · subst e
    exact ⟨b, by simp [Bal.transfer], by omega⟩
  · refine Bal.transfer_solvent hf hv ho (Or.inr ?_) e
    rcases hd with h | h
    · exact absurd h.symm e
    · omega

/-- The account holds the existential deposit on top of everything owed, and everybody who may be paid
from an auction has an account. -/
structure Healthy (c : Cfg) (w : World) : Prop where
  surplus : owed w + c.ed ≤ w.bal.freeOf c.aucPot
  payees : ∀ n x d k, w.auc.auctions.get n = some x → w.nfts.get n = some d →
    w.mkt.mkts.get x.mkt = some k →
    (k.owner = c.aucPot ∨ c.ed ≤ w.bal.freeOf k.owner) ∧
    (d.creator = c.aucPot ∨ c.ed ≤ w.bal.freeOf d.creator) ∧
    (x.creator = c.aucPot ∨ c.ed ≤ w.bal.freeOf x.creator)

theorem pay_succeeds (hf : w.bal.frozen c.aucPot = 0) {n x d k v}
    (hk : w.mkt.mkts.get x.mkt = some k) (hc : w.auc.comm.get n ≠ none)
    (hm : ∀ f, w.auc.comm.get n = some f → MktM.feeOnOpt v f ≤ v)
    (hv : v + c.ed ≤ w.bal.freeOf c.aucPot)
    (p1 : k.owner = c.aucPot ∨ c.ed ≤ w.bal.freeOf k.owner)
    (p2 : d.creator = c.aucPot ∨ c.ed ≤ w.bal.freeOf d.creator)
    (p3 : x.creator = c.aucPot ∨ c.ed ≤ w.bal.freeOf x.creator) :
    ∃ b, payForNft c w n c.aucPot v d x = (b, .ok ()) := by
  obtain ⟨f, hf'⟩ := Option.ne_none_iff_exists'.1 hc
  have hmv := hm f hf'
  unfold payForNft
  rw [hk, hf']
  simp only [if_true, cuts]
  generalize MktM.feeOnOpt v f = m at *
  have hrv : d.royalty.mul (v - m) ≤ v - m := d.royalty.mul_le _
  generalize d.royalty.mul (v - m) = r at *
  obtain ⟨b1, h1, o1⟩ := Bal.transfer_solvent' (o := r + (v - m - r) + c.ed) (ed := c.ed) (v := m) hf
    (by omega) (by omega) p1
  have m1 := Bal.transfer_mono h1
  have keep : ∀ {b b' : Bal} {p : AccountId}, Bal.Mono (· = c.aucPot) b b' →
      (p = c.aucPot ∨ c.ed ≤ b.freeOf p) → p = c.aucPot ∨ c.ed ≤ b'.freeOf p := by
    intro b b' p hm h
    by_cases e : p = c.aucPot
    · exact Or.inl e
    · exact Or.inr (Nat.le_trans (h.resolve_left e) (hm.free p e))
  obtain ⟨b2, h2, o2⟩ := Bal.transfer_solvent' (b := b1) (o := (v - m - r) + c.ed) (ed := c.ed) (v := r)
    (by rw [Bal.frozen_mono m1]; exact hf) (by omega) (by omega) (keep m1 p2)
  have m2 := Bal.transfer_mono h2
  obtain ⟨b3, h3, o3⟩ := Bal.transfer_solvent' (b := b2) (o := c.ed) (ed := c.ed) (v := v - m - r)
    (by rw [Bal.frozen_mono m2, Bal.frozen_mono m1]; exact hf) (by omega) (by omega) (keep m2 (keep m1 p3))
  exact ⟨b3, by simp [paySeq, h1, h2, h3]⟩

theorem mem_le_sum {l : List Nat} {a : Nat} (h : a ∈ l) : a ≤ l.sum := by
  induction l with
  | nil => simp at h
  | cons b t ih =>
    simp only [List.mem_cons] at h
    rw [List.sum_cons]
    rcases h with rfl | h
    · omega
    · have := ih h; omega

theorem owed_ge {n x y} (hx : w.auc.auctions.get n = some x) (hy : y ∈ x.bids) : y.2 ≤ owed w := by
  have h1 : wt (fun _ => true) x.bids ≤ w.auc.auctions.sumBy fun _ x => wt (fun _ => true) x.bids :=
    FMap.sumBy_le_of_get (f := fun _ x => wt (fun _ => true) x.bids) hx
  have h2 : y.2 ≤ wt (fun _ => true) x.bids := by
    simp only [wt, wt1, if_true]
    exact mem_le_sum (List.mem_map_of_mem hy)
  unfold owed stake; omega

/-- In a healthy state the next settlement succeeds and the state stays healthy. -/
theorem Healthy.pop (h : Healthy c w) (hi : Inv c w) (hn : HasNft w) (hb : BalInv c w.bal)
    (hp : Pop c w w') : Healthy c w' ∧ BalInv c w'.bal ∧
      ∀ n e t, w.auc.deadlines = (n, e) :: t → w'.auc.auctions.get n = none := by
  have keep : ∀ {b' : Bal} {p : AccountId}, Bal.Mono (· = c.aucPot) w.bal b' →
      (p = c.aucPot ∨ c.ed ≤ w.bal.freeOf p) → p = c.aucPot ∨ c.ed ≤ b'.freeOf p := by
    intro b' p hm h
    by_cases e : p = c.aucPot
    · exact Or.inl e
    · exact Or.inr (Nat.le_trans (h.resolve_left e) (hm.free p e))
  have hst := hp.stake (P := fun _ => true)
  cases hp with
  | @won n e t x d top b hq he hx hd htop hp =>
    have hok := hi.ok n x hx
    have htm := List.mem_of_getLast? htop
    have hbid := hok.bid top htm
    have hpays := payForNft_pays (c := c) (n := n) (src := c.aucPot) (v := top.2) (d := d) (x := x) w
    rw [hp] at hpays
    refine ⟨⟨?_, ?_⟩, hb.pays hpays, ?_⟩
    · rcases hst with ⟨e1, e2⟩ | ⟨n', x', top', e1, e2, e3, e4⟩
      · rcases e2 n with h | ⟨h, y, hy, hb⟩
        · simp [hx] at h
        · rw [hx] at hy; simp at hy; subst hy; rw [hb] at htop; simp at htop
      · have h1 := auctions_erase (P := fun _ => true) hx
        have h2 := wt_last (P := fun _ => true) htop
        have h3 := h.surplus
        refine Paid.left hp ?_ (by omega) fun f hf => hok.cuts (by omega) hf
        refine Nat.le_trans (Nat.le_of_eq ?_) h3
        simp only [owed, stake, claims_add]
        simp only [wt1, if_true] at *
        omega
    · intro n' x' d' k' hx' hd' hk'
      simp only [FMap.get_erase] at hx'
      split at hx'
      · simp at hx'
      · rename_i hne
        simp only [FMap.get_insert, hne, if_false] at hd'
        obtain ⟨p1, p2, p3⟩ := h.payees n' x' d' k' hx' hd' hk'
        exact ⟨keep hpays.mono p1, keep hpays.mono p2, keep hpays.mono p3⟩
    · intro n' e' t' hq'
      rw [hq] at hq'; simp at hq'; obtain ⟨⟨rfl, rfl⟩, rfl⟩ := hq'
      simp
  | @noBid n e t x d hq he hx hd hnb =>
    refine ⟨⟨?_, ?_⟩, hb, ?_⟩
    · have h3 := h.surplus
      refine Nat.le_trans ?_ h3
      rcases hst with ⟨e1, e2⟩ | ⟨n', x', top', e1, e2, e3, e4⟩
      · exact Nat.add_le_add_right (Nat.le_of_eq e1) _
      · exact Nat.add_le_add_right (show stake _ _ ≤ stake _ _ by omega) _
    · intro n' x' d' k' hx' hd' hk'
      simp only [FMap.get_erase] at hx'
      split at hx'
      · simp at hx'
      · rename_i hne
        simp only [FMap.get_insert, hne, if_false] at hd'
        exact h.payees n' x' d' k' hx' hd' hk'
    · intro n' e' t' hq'
      rw [hq] at hq'; simp at hq'; obtain ⟨⟨rfl, rfl⟩, rfl⟩ := hq'
      simp
  | @missed n e t x d top b err hq he hx hd htop hp =>
    exfalso
    have hok := hi.ok n x hx
    have htm := List.mem_of_getLast? htop
    have hbid := hok.bid top htm
    obtain ⟨k, hk⟩ := Option.ne_none_iff_exists'.1 hok.mkt
    obtain ⟨f, hf, _⟩ := hok.comm
    obtain ⟨p1, p2, p3⟩ := h.payees n x d k hx hd hk
    have hs := h.surplus
    have := owed_ge hx htm
    obtain ⟨b', hb'⟩ := pay_succeeds (hb.pots _ Cfg.pot_auc) (n := n) (v := top.2) hk (by rw [hf]; simp)
      (fun f hf => hok.cuts (by omega) hf) (by omega) p1 p2 p3
    rw [hp] at hb'; simp at hb'
  | @stray n e t hq he h =>
    exfalso
    obtain ⟨x, hx, _⟩ := hi.inQ n e (by rw [hq]; simp)
    obtain ⟨d, hd⟩ := hn n x hx
    rcases h with h | h
    · rw [hx] at h; simp at h
    · rw [hd] at h; simp at h

theorem Healthy.pops (h : Relation.ReflTransGen (Pop c) w w') (hh : Healthy c w) (hi : Inv c w)
    (hn : HasNft w) (hb : BalInv c w.bal) : Healthy c w' ∧ Settled w w' := by
  induction h using Relation.ReflTransGen.head_induction_on with
  | refl => exact ⟨hh, fun n h1 h2 => absurd h1 h2⟩
  | @head w0 w1 h1 h2 ih =>
    obtain ⟨p1, p2, p3⟩ := hh.pop hi hn hb h1
    obtain ⟨q1, q2⟩ := ih p1 (hi.pop h1) (hn.pop h1) p2
    refine ⟨q1, fun n h3 h4 => ?_⟩
    by_cases h5 : n ∈ Queue.ids w1.auc.deadlines
    · exact q2 n h5 h4
    · obtain ⟨m, e, t, hq, he, ht⟩ := h1.head
      have : n = m := by
        rw [hq] at h3; rw [ht] at h5
        simp only [Queue.ids, List.map_cons, List.mem_cons] at h3 h5
        exact h3.resolve_right h5
      subst this
      have h6 := p3 n e t hq
      cases h7 : w'.auc.auctions.get n with
      | none => rfl
      | some x => rw [pops_sub h2 h7] at h6; simp at h6

/-! ## how far the hook gets -/

/-- the hook takes a prefix of the schedule -/
theorem hookLoop_drop (q : Queue) (w : World) (i : Nat) :
    ∃ j, (hookLoop c w q i).2 = q.drop j ∧ (∀ x ∈ q.take j, x.2 ≤ w.now) ∧
      ∀ p x, q.Pairwise (fun x y => x.2 ≤ y.2) → q[p]? = some x → x.2 ≤ w.now →
        p + i < max 1 c.aucActions → p < j := by
  induction q generalizing w i with
  | nil => exact ⟨0, rfl, by simp, by simp⟩
  | cons y t ih =>
    obtain ⟨n, e⟩ := y
    simp only [hookLoop]
    split
    · rename_i he
      have hnow : (settleOne c w n).1.now = w.now := settleOne_now w n
      have cont : ∀ i', (∀ p, p + 1 + i < max 1 c.aucActions → p + i' < max 1 c.aucActions) →
          ∃ j, (hookLoop c (settleOne c w n).1 t i').2 = ((n, e) :: t).drop j ∧
            (∀ x ∈ ((n, e) :: t).take j, x.2 ≤ w.now) ∧
            ∀ p x, ((n, e) :: t).Pairwise (fun x y => x.2 ≤ y.2) → ((n, e) :: t)[p]? = some x →
              x.2 ≤ w.now → p + i < max 1 c.aucActions → p < j := by
        intro i' hi'
        obtain ⟨j, h1, h2, h3⟩ := ih (settleOne c w n).1 i'
        refine ⟨j + 1, by simpa using h1, ?_, ?_⟩
        · intro x hx
          simp only [List.take_succ_cons, List.mem_cons] at hx
          rcases hx with rfl | hx
          · exact he
          · rw [← hnow]; exact h2 x hx
        · intro p x hs hp hx hlt
          cases p with
          | zero => omega
          | succ p =>
            have := h3 p x (List.pairwise_cons.1 hs).2 (by simpa using hp) (by rw [hnow]; exact hx)
              (hi' p hlt)
            omega
      split
      · split
        · rename_i hstop
          refine ⟨1, by simp, by simp [he], fun p x _ _ _ hlt => by omega⟩
        · exact cont (i + 1) (fun p h => by omega)
      · exact cont i (fun p h => by omega)
    · rename_i he
      refine ⟨0, rfl, by simp, fun p x hs hp hx _ => ?_⟩
      exfalso
      cases p with
      | zero => simp at hp; subst hp; exact he hx
      | succ p =>
        have h1 := (List.pairwise_cons.1 hs).1 x (List.mem_of_getElem? (by simpa using hp))
        exact he (Nat.le_trans h1 hx)

theorem hook_deadlines (w : World) :
    (hook c w).auc.deadlines = (hookLoop c w w.auc.deadlines 0).2 := rfl

/-- A due entry is taken, or moves up by at least the number of actions per block. -/
theorem hook_at (hq : Queue.WF w.auc.deadlines) {n b i} (h : Queue.At w.auc.deadlines n b i)
    (hb : b ≤ w.now) :
    n ∉ Queue.ids (hook c w).auc.deadlines ∨
    (max 1 c.aucActions ≤ i ∧ ∃ j, j ≤ i - max 1 c.aucActions ∧
      Queue.At (hook c w).auc.deadlines n b j) := by
  obtain ⟨j, h1, h2, h3⟩ := hookLoop_drop (c := c) w.auc.deadlines w 0
  rw [hook_deadlines, h1]
  have hi := Queue.At.iff.1 h
  by_cases hij : i < j
  · left
    intro hin
    obtain ⟨e, he⟩ := Queue.mem_ids.1 hin
    have hnd := hq.nd
    have hsplit : w.auc.deadlines = w.auc.deadlines.take j ++ w.auc.deadlines.drop j :=
      (List.take_append_drop ..).symm
    rw [hsplit] at hnd
    simp only [Queue.ids, List.map_append] at hnd
    have hm : (n, b) ∈ w.auc.deadlines.take j := by
      refine List.mem_of_getElem? (i := i) ?_
      rw [List.getElem?_take, if_pos hij]; exact hi
    exact (List.nodup_append.1 hnd).2.2 n (List.mem_map_of_mem hm) n
      (List.mem_map_of_mem he) rfl
  · right
    have hL : max 1 c.aucActions ≤ j := by
      by_contra hlt
      -- the entry just before the limit is due as well
      have hlen : i < w.auc.deadlines.length := by
        obtain ⟨hl, _⟩ := List.getElem?_eq_some_iff.1 hi; exact hl
      obtain ⟨x, hx⟩ : ∃ x, w.auc.deadlines[j]? = some x := ⟨_, List.getElem?_eq_getElem (by omega)⟩
      have hxb : x.2 ≤ w.now := by
        by_cases e : j = i
        · subst e; rw [hi] at hx; simp at hx; subst hx; exact hb
        · have := List.pairwise_iff_getElem.1 hq.sorted j i (by omega) hlen (by omega)
          obtain ⟨_, hx'⟩ := List.getElem?_eq_some_iff.1 hx
          obtain ⟨_, hi'⟩ := List.getElem?_eq_some_iff.1 hi
          rw [hx', hi'] at this
          exact Nat.le_trans this hb
      have := h3 j x hq.sorted hx hxb (by omega)
      omega
    refine ⟨by omega, i - j, by omega, ?_⟩
    refine Queue.At.iff.2 ?_
    rw [List.getElem?_drop]
    rw [show j + (i - j) = i by omega]; exact hi

end AucM

import Mathlib.Data.Finset.Card
import Verif.Props.Demo
import Verif.Props.Priv
import Verif.Proofs.BrInv
/-
Properties C51 to C56: the bridge.
-/
variable {c : Cfg} {w w' w0 : World} {a : AccountId}
set_option maxRecDepth 10000

/- Specification -/
namespace Spec

/-- `v` voted for the transfer `t` from chain `k`, in one of the operations `l`, when they were a relayer and the
voting period that starts at block `b` was running. -/
def Voted (c : Cfg) (w0 : World) (l : List Op) (k : ChainId) (t : Transfer) (b : Block) (v : AccountId) : Prop :=
  ∃ l1 l2, l = l1 ++ .call (.signed v) (.br (.vote k t)) :: l2 ∧ v ∈ (run c w0 l1).br.relayers ∧
    emits c (run c w0 l1) (.call (.signed v) (.br (.vote k t))) (.voted k t v) ∧
    b ≤ (run c w0 l1).now ∧ ((run c w0 l1).now = b ∨ (run c w0 l1).now < b + c.proposalLife)

/-- the event announces a mint for chain `k` and nonce `n` -/
def mints (k : ChainId) (n : Nat) : Ev → Bool
  | .approved k' t => k' = k ∧ t.nonce = n
  | _ => false

/-- the nonces of the announced deposits to chain `k`, newest first -/
def nonces (k : ChainId) : List Ev → List Nat
  | [] => []
  | .deposited k' n _ _ :: l => if k' = k then n :: nonces k l else nonces k l
  | _ :: l => nonces k l

/-- the foreign chain of a mint or a deposit -/
def foreign : Ev → Option ChainId
  | .approved k _ => some k
  | .deposited k _ _ _ => some k
  | _ => none

/-- `o` whitelists chain `k`, by root or by the committee -/
def whitelists (k : ChainId) (o : Op) : Prop :=
  ∃ g x, o = .call g x ∧ (∀ a, g ≠ .signed a) ∧ innermost x = .ext (.addChain k)

end Spec

namespace Demo

/-- root whitelists chain 1 and names relayers 1 to 3 -/
abbrev bridge : List Op := [.call .root (.ext (.addChain 1)), .call .root (.ext (.setRelayers [1, 2, 3]))]

/-- 700 tokens for account 7 -/
abbrev t7 : Transfer := ⟨1, 7, 700⟩

/-- a vote for them -/
abbrev vote7 (a : AccountId) : Op := by_ a (.br (.vote 1 t7))

end Demo

theorem of_take {P : List Op → Prop} {l : List Op} (h : ∀ i ∈ List.range (l.length + 1), P (l.take i)) :
    ∀ l1 l2, l = l1 ++ l2 → P l1 := by
  rintro l1 l2 rfl
  have := h l1.length (by simp; omega)
  simpa using this

/-! ## C51 -/

/-- C51: a transfer is approved at most once in any history. -/
theorem C51_once (hr : Reach c w) (k : ChainId) (t : Transfer) : w.evs.count (.approved k t) ≤ 1 :=
  hr.binv.once k t

-- a transfer that was minted
example := C51_once (Demo.reach (Demo.bridge ++ [Demo.vote7 1, Demo.vote7 2, Demo.vote7 3]) (by decide)) 1 Demo.t7

/-- C51: a vote without approval moves no tokens; an approval gives the recipient the amount of the transfer, and
touches nobody else. -/
theorem C51_mint (k : ChainId) (t : Transfer) :
    let o := Op.call (.signed a) (.br (.vote k t))
    (¬ Spec.emits c w o (.approved k t) ∧ (step c w o).bal = w.bal) ∨
    (Spec.emits c w o (.approved k t) ∧
      (∀ x, x ≠ t.recipient → (step c w o).bal.freeOf x = w.bal.freeOf x) ∧
      w.bal.issuance ≤ (step c w o).bal.issuance ∧
      (step c w o).bal.issuance ≤ w.bal.issuance + t.amount ∧
      (step c w o).bal.freeOf t.recipient ≤ w.bal.freeOf t.recipient + t.amount ∧
      (w.bal.issuance + t.amount ≤ U128MAX → c.ed ≤ t.amount ∨ 0 < w.bal.freeOf t.recipient →
        (step c w o).bal.freeOf t.recipient = w.bal.freeOf t.recipient + t.amount)) := by
  intro o
  have hq : ∀ w', step c w o = w' → w'.evs.count (.approved k t) = w.evs.count (.approved k t) →
      ¬ Spec.emits c w o (.approved k t) := by
    rintro w' rfl h1 h2
    have := emits_count h2; omega
  cases h : dispatch c (.br (.vote k t)) (.signed a) w with
  | error e =>
    have e : step c w o = w := by simp only [o, step, h]; rfl
    exact .inl ⟨hq _ e rfl, by rw [e]⟩
  | ok w' =>
    have e : step c w o = w' := by simp only [o, step, h]; rfl
    obtain ⟨x, h1, h2, h3, rfl⟩ := BrM.voteFor_ok h
    cases hx : x.2 with
    | false => exact .inl ⟨hq _ e (by simp [hx, BrM.payout, World.ev]), by rw [e, hx]; rfl⟩
    | true =>
      right
      rw [e, hx]
      refine ⟨⟨[.approved k t, .voted k t a], by rw [e, hx]; rfl, by simp⟩, fun y hy => ?_, ?_, ?_, ?_, fun g1 g2 => ?_⟩
      · exact (Bal.mint_free w.bal _ _ y).trans (by simp [hy])
      · exact (Bal.mint_issuance (ed := c.ed) w.bal t.recipient t.amount).1
      · exact (Bal.mint_issuance (ed := c.ed) w.bal t.recipient t.amount).2.1
      · refine Nat.le_trans (Nat.le_of_eq (Bal.mint_free w.bal _ _ t.recipient)) ?_
        simp only [if_true]; split <;> omega
      · refine (Bal.mint_free w.bal _ _ t.recipient).trans ?_
        rw [Nat.min_eq_left (by omega)]
        simp only [if_true]; split
        · omega
        · rfl

-- two votes approve the transfer, the third one comes too late
example : Reach Demo.cfg (Demo.at_ (Demo.bridge ++ [Demo.vote7 1, Demo.vote7 2, Demo.vote7 3])) ∧
    (Demo.at_ (Demo.bridge ++ [Demo.vote7 1, Demo.vote7 2, Demo.vote7 3])).evs =
      [.approved 1 Demo.t7, .voted 1 Demo.t7 2, .voted 1 Demo.t7 1] ∧
    (Demo.at_ (Demo.bridge ++ [Demo.vote7 1, Demo.vote7 2, Demo.vote7 3])).bal.freeOf 7 = 10700 :=
  ⟨Demo.reach _ (by decide), by decide, by decide⟩

/-! ## C52 -/

/-- C52: when an operation approves a transfer, at least as many distinct accounts as the threshold then demands
have voted for exactly this transfer, each of them when they were a relayer and in the same voting period. -/
theorem C52 (hg : Genesis c w0) (l : List Op) (o : Op) (hl : ∀ x ∈ l ++ [o], x.Ok c) (k : ChainId) (t : Transfer)
    (h : Spec.emits c (run c w0 l) o (.approved k t)) :
    ∃ (voters : List AccountId) (b : Block), voters.Nodup ∧ (run c w0 l).br.threshold ≤ voters.length ∧
      ∀ v ∈ voters, Spec.Voted c w0 (l ++ [o]) k t b v := by
  have hv := vinv hg (l ++ [o]) hl
  have hc := emits_count h
  have hs := step_br (run c w0 l) o (hl o (by simp))
  unfold VInv at hv
  rw [run_snoc] at hv
  generalize step c (run c w0 l) o = w' at *
  cases hs with
  | quiet e he => rw [evs_bridge rfl he] at hc; omega
  | ext hg hx h e he => rw [evs_bridge rfl he] at hc; omega
  | deposit h1 hn h2 e he => simp [he] at hc
  | @vote a k' t' x _ h1 h2 h3 h4 e he hb =>
    rw [he] at hc
    have hx : x.2 = true ∧ k' = k ∧ t' = t := by
      cases hx : x.2
      · simp [hx] at hc
      · by_cases hk : k' = k ∧ t' = t
        · exact ⟨rfl, hk⟩
        · simp [hx, hk] at hc
    obtain ⟨hx, rfl, rfl⟩ := hx
    obtain ⟨n1, b, _, _, n2⟩ := hv k' t' x.1 (by rw [e]; simp)
    refine ⟨x.1.votes, b, n1, (BrM.vote_ok h3).2.1.1 hx, fun v hv => ?_⟩
    obtain ⟨l1, l2, e1, e2, ⟨m, e3⟩, e4⟩ := n2 v hv
    exact ⟨l1, l2, e1, e2, ⟨m ++ [.voted k' t' v], by simp [e3], by simp⟩, e4⟩

example : Spec.emits Demo.cfg (run Demo.cfg Demo.w0 (Demo.bridge ++ [Demo.vote7 1])) (Demo.vote7 2) (.approved 1 Demo.t7) :=
  ⟨[.approved 1 Demo.t7, .voted 1 Demo.t7 2], by decide, by decide⟩
-- a late vote does not count
example : (Demo.at_ (Demo.bridge ++ [Demo.vote7 1] ++ Demo.ticks 10 ++ [Demo.vote7 2])).evs = [.voted 1 Demo.t7 1] := by
  decide

/-! ## C53 -/

/-- C53 fails: relayers can approve two transfers with the same nonce, which differ in the recipient or the amount. -/
theorem C53_fails : ∃ w t t', Reach Demo.cfg w ∧ t.nonce = t'.nonce ∧ w.evs.filter (Spec.mints 1 t.nonce) =
    [.approved 1 t', .approved 1 t] ∧ w.bal.freeOf 7 = 10700 ∧ w.bal.freeOf 8 = 10500 :=
  ⟨Demo.at_ (Demo.bridge ++ [Demo.vote7 1, Demo.vote7 2] ++
      [Demo.by_ 2 (.br (.vote 1 ⟨1, 8, 500⟩)), Demo.by_ 3 (.br (.vote 1 ⟨1, 8, 500⟩))]),
    Demo.t7, ⟨1, 8, 500⟩, Demo.reach _ (by decide), by decide, by decide, by decide, by decide⟩

/-- C53 (partial): let the threshold be at least `m` and all relayers be in `R` all the time, and let only accounts in
`F` vote for two transfers of the same nonce.  If `R.length + F.length < 2 * m`, then each nonce is minted at most once.
Missing: relayers who vote for two transfers of the same nonce, see `C53_fails`. -/
theorem C53_partial (hg : Genesis c w0) (l : List Op) (hl : ∀ o ∈ l, o.Ok c) {m : Nat} {R F : List AccountId}
    (hR : ∀ l1 l2, l = l1 ++ l2 → m ≤ (run c w0 l1).br.threshold ∧ ∀ a ∈ (run c w0 l1).br.relayers, a ∈ R)
    (k : ChainId) (n : Nat)
    (hF : ∀ a, a ∉ F → ∀ t t', t.nonce = n → t'.nonce = n → .voted k t a ∈ (run c w0 l).evs →
      .voted k t' a ∈ (run c w0 l).evs → t = t')
    (hm : R.length + F.length < 2 * m) : ((run c w0 l).evs.filter (Spec.mints k n)).length ≤ 1 := by
  have hr : Reach c (run c w0 l) := (Reach.init hg).run l hl
  have key : ∀ t, .approved k t ∈ (run c w0 l).evs → ∃ V : Finset AccountId, m ≤ V.card ∧
      V ⊆ R.toFinset ∧ ∀ v ∈ V, .voted k t v ∈ (run c w0 l).evs := by
    intro t ht
    obtain ⟨p, hp, hpa⟩ := hr.binv.mark k t ht
    have hq := quorum hg l hl (fun l1 l2 e => (hR l1 l2 e).1) k t p hp hpa
    obtain ⟨h1, b, _, _, h2⟩ := vinv hg l hl k t p hp
    refine ⟨p.votes.toFinset, by rw [List.toFinset_card_of_nodup h1]; exact hq, ?_, ?_⟩
    · intro v hv
      obtain ⟨l1, l2, e, h3, _⟩ := h2 v (List.mem_toFinset.1 hv)
      exact List.mem_toFinset.2 ((hR l1 _ e).2 v h3)
    · intro v hv
      exact (h2 v (List.mem_toFinset.1 hv)).mem
  have uniq : ∀ t t', t.nonce = n → t'.nonce = n → .approved k t ∈ (run c w0 l).evs →
      .approved k t' ∈ (run c w0 l).evs → t = t' := by
    intro t t' e e' h h'
    obtain ⟨V, v1, v2, v3⟩ := key t h
    obtain ⟨V', v1', v2', v3'⟩ := key t' h'
    have h1 := Finset.card_union_add_card_inter V V'
    have h2 : (V ∪ V').card ≤ R.length :=
      (Finset.card_le_card (Finset.union_subset v2 v2')).trans (List.toFinset_card_le R)
    have h3 : ¬ (V ∩ V') ⊆ F.toFinset := by
      intro hs
      have := (Finset.card_le_card hs).trans (List.toFinset_card_le F)
      omega
    rw [Finset.not_subset] at h3
    obtain ⟨v, hv, hvF⟩ := h3
    rw [Finset.mem_inter] at hv
    exact hF v (fun hf => hvF (List.mem_toFinset.2 hf)) t t' e e' (v3 v hv.1) (v3' v hv.2)
  have once := fun t => C51_once hr k t
  generalize (run c w0 l).evs = evs at *
  have hmem : ∀ e ∈ evs.filter (Spec.mints k n), ∃ t, e = .approved k t ∧ t.nonce = n ∧ .approved k t ∈ evs := by
    intro e he
    obtain ⟨h1, h2⟩ := List.mem_filter.1 he
    cases e <;> simp [Spec.mints] at h2
    obtain ⟨rfl, h2⟩ := h2
    exact ⟨_, rfl, h2, h1⟩
  cases hf : evs.filter (Spec.mints k n) with
  | nil => simp
  | cons x xs =>
    obtain ⟨t, rfl, ht, hin⟩ := hmem x (by simp [hf])
    have hall : ∀ e ∈ evs.filter (Spec.mints k n), e = .approved k t := by
      intro e he
      obtain ⟨t', rfl, ht', hin'⟩ := hmem e he
      rw [uniq t' t ht' ht hin' hin]
    have hrep := List.eq_replicate_of_mem hall
    have hcount : (evs.filter (Spec.mints k n)).count (.approved k t) = (evs.filter (Spec.mints k n)).length := by
      conv_lhs => rw [hrep]
      simp
    have hle : (evs.filter (Spec.mints k n)).count (.approved k t) ≤ evs.count (.approved k t) :=
      List.filter_sublist.count_le _
    rw [← hf, ← hcount]
    exact hle.trans (once t)

-- the hypotheses hold when two of three relayers approve one transfer, and the third votes for another one
example : ((Demo.at_ (Demo.bridge ++ [Demo.vote7 1, Demo.vote7 2, Demo.by_ 3 (.br (.vote 1 ⟨1, 8, 500⟩))])).evs.filter
    (Spec.mints 1 1)).length ≤ 1 := by
  refine C53_partial (R := [1, 2, 3]) (F := []) (m := 2) Demo.genesis _ (by decide)
    (of_take (P := fun l => 2 ≤ (run Demo.cfg Demo.w0 l).br.threshold ∧
      ∀ a ∈ (run Demo.cfg Demo.w0 l).br.relayers, a ∈ [1, 2, 3]) (by decide)) 1 1 ?_ (by decide)
  have e : (run Demo.cfg Demo.w0
      (Demo.bridge ++ [Demo.vote7 1, Demo.vote7 2, Demo.by_ 3 (.br (.vote 1 ⟨1, 8, 500⟩))])).evs =
      [.voted 1 ⟨1, 8, 500⟩ 3, .approved 1 Demo.t7, .voted 1 Demo.t7 2, .voted 1 Demo.t7 1] := by decide
  rw [e]
  intro a _ t t' _ _ h h'
  simp at h h'
  rcases h with ⟨rfl, rfl⟩ | ⟨rfl, rfl⟩ | ⟨rfl, rfl⟩ <;> rcases h' with ⟨rfl, h'⟩ | ⟨rfl, h'⟩ | ⟨rfl, h'⟩ <;>
    first | rfl | simp at h'

/-! ## C54 -/

theorem nonces_eq (k : ChainId) (l : List Ev) : Spec.nonces k l = depNonces k l := by
  induction l with
  | nil => rfl
  | cons e l ih =>
    cases e <;> simp only [Spec.nonces, depNonces, List.filterMap_cons] <;> try exact ih
    split <;> simp [ih, depNonces]

/-- C54: a deposit is announced with the next nonce of its chain, and this nonce is remembered. -/
theorem C54_next {v r d} (h : dispatch c (.br (.deposit v r d)) (.signed a) w = .ok w') :
    ∃ n, w.br.nonces.get d = some n ∧ (n < 2 ^ 64 - 1 → w'.br.nonces.get d = some (n + 1) ∧
      w'.evs = .deposited d (n + 1) r v :: w.evs) := by
  obtain ⟨b1, b2, h1, h2, h3, h4, rfl⟩ := BrM.deposit_ok h
  obtain ⟨n, hn⟩ := Option.isSome_iff_exists.1 h1
  refine ⟨n, hn, fun hlt => ?_⟩
  have : (n + 1) % (U64MAX + 1) = n + 1 := Nat.mod_eq_of_lt (by unfold U64MAX; omega)
  simp [World.ev, hn, this]

-- the first deposit
example := C54_next (Demo.accepted (l := Demo.bridge) (x := .br (.deposit 100 [7] 1)) (o := .signed 1) (by decide))

/-- C54 fails: the nonce is a `u64`, and root may set it to the largest one; then it starts again from 0, and a
nonce occurs twice. -/
theorem C54_fails : ∃ w, Reach Demo.cfg w ∧ Spec.nonces 1 w.evs = [1, 0, 1] :=
  ⟨Demo.at_ (Demo.bridge ++ [Demo.by_ 1 (.br (.deposit 100 [] 1)), .call .root (.ext (.setNonce 1 (2 ^ 64 - 1))),
      Demo.by_ 1 (.br (.deposit 100 [] 1)), Demo.by_ 1 (.br (.deposit 100 [] 1))]),
    Demo.reach _ (by decide), by decide⟩

/-- C54 (partial): while the nonce of a chain never becomes the largest `u64`, the announced nonces are strictly
increasing.  Missing: the wrap-around, see `C54_fails`. -/
theorem C54_partial (hg : Genesis c w0) (k : ChainId) (l : List Op) (hl : ∀ o ∈ l, o.Ok c)
    (hm : ∀ l1 l2, l = l1 ++ l2 → (run c w0 l1).br.nonces.get k ≠ some (2 ^ 64 - 1)) :
    (Spec.nonces k (run c w0 l).evs).Pairwise (· > ·) := by
  rw [nonces_eq]
  exact (dep_inv hg k l hl hm).2.1

example : Spec.nonces 1 (Demo.at_ (Demo.bridge ++ [Demo.by_ 1 (.br (.deposit 100 [] 1)),
    .call .root (.ext (.setNonce 1 7)), Demo.by_ 2 (.br (.deposit 100 [] 1)), Demo.by_ 1 (.br (.deposit 100 [] 1))])).evs =
      [9, 8, 1] := by decide
example : (Spec.nonces 1 (Demo.at_ (Demo.bridge ++ [Demo.by_ 1 (.br (.deposit 100 [] 1)),
    .call .root (.ext (.setNonce 1 7)), Demo.by_ 2 (.br (.deposit 100 [] 1))])).evs).Pairwise (· > ·) :=
  C54_partial Demo.genesis 1 _ (by decide)
    (of_take (P := fun l => (run Demo.cfg Demo.w0 l).br.nonces.get 1 ≠ some (2 ^ 64 - 1)) (by decide))

/-! ## C55 -/

/-- C55: a successful deposit takes fee and amount from the sender, hands the fee to the collector, and burns the
amount, together with a rest below the existential deposit; nobody else is touched. -/
theorem C55 (hr : Reach c w) {v r d}
    (h : dispatch c (.br (.deposit v r d)) (.signed a) w = .ok w') :
    (∀ x, x ≠ a → w'.bal.freeOf x = w.bal.freeOf x) ∧ w'.bal.collected = w.bal.collected + w.br.fee ∧
    (∃ n, w'.evs = .deposited d n r v :: w.evs) ∧
    ∃ dust, (dust = 0 ∨ dust < c.ed ∧ w'.bal.freeOf a = 0) ∧
      w'.bal.freeOf a + dust + v + w.br.fee = w.bal.freeOf a ∧ w'.bal.issuance + dust + v = w.bal.issuance := by
  obtain ⟨b1, b2, h1, h2, h3, h4, rfl⟩ := BrM.deposit_ok h
  have hf := Bal.payFee_free h3
  have hi := Bal.payFee_issuance h3
  have hle := Bal.payFee_le h3
  have hle2 := Bal.withdraw_le h4
  have hwf := Bal.payFee_wf (hr.micro.balInv).wf h3
  have hsum := hwf.sum
  have htot := Bal.freeOf_le_total b1 a
  have hfa := hf a
  simp only [if_true] at hfa
  rcases Bal.withdraw_ok h4 with ⟨rfl, rfl⟩ | ⟨hv, _, _, rfl⟩
  · refine ⟨fun x hx => ?_, hi.2, ⟨_, rfl⟩, 0, .inl rfl, ?_, ?_⟩
    · exact (hf x).trans (by simp [hx])
    · show b2.freeOf a + 0 + 0 + w.br.fee = _; omega
    · show b2.issuance - 0 + 0 + 0 = _; omega
  · have hs := Bal.freeOf_settle (ed := c.ed) b1 a
    have hd : Bal.dust c.ed (b1.freeOf a - v) ≤ b1.freeOf a - v := by unfold Bal.dust; split <;> omega
    refine ⟨fun x hx => ?_, ?_, ⟨_, rfl⟩, Bal.dust c.ed (b1.freeOf a - v), ?_, ?_, ?_⟩
    · refine (hs x _).trans ?_
      simp only [hx, if_false]
      exact (hf x).trans (by simp [hx])
    · show (b1.settle c.ed a (b1.freeOf a - v)).collected = _
      rw [Bal.settle_collected]; exact hi.2
    · have hs := hs a (b1.freeOf a - v)
      unfold Bal.dust
      split
      · rename_i hlt
        exact .inr ⟨hlt, hs.trans (by simp [hlt])⟩
      · exact .inl rfl
    · show (b1.settle c.ed a (b1.freeOf a - v)).freeOf a + _ + _ + _ = _
      rw [hs]; unfold Bal.dust
      simp only [if_true]; split <;> omega
    · show (b1.settle c.ed a (b1.freeOf a - v)).issuance - v + _ + v = _
      rw [Bal.settle_issuance]
      omega

-- a deposit which empties the account
example := C55 (Demo.reach Demo.bridge (by decide))
  (Demo.accepted (x := .br (.deposit 9990 [7] 1)) (o := .signed 1) (by decide))

/-- C55: whatever the fee, a deposit of more than the sender has beyond it fails, also if the sum exceeds `u128`. -/
theorem C55_overflow {v r d} (h : w.bal.freeOf a < w.br.fee + v) :
    ∃ e, dispatch c (.br (.deposit v r d)) (.signed a) w = .error e := by
  cases hd : dispatch c (.br (.deposit v r d)) (.signed a) w with
  | error e => exact ⟨e, rfl⟩
  | ok w' =>
    obtain ⟨b1, b2, h1, h2, h3, h4, rfl⟩ := BrM.deposit_ok hd
    have hf := Bal.payFee_free h3 a
    have hle := Bal.payFee_le h3
    have hle2 := Bal.withdraw_le h4
    simp only [if_true] at hf
    omega

-- 3 tokens fee, 9990 burned, 7 left as dust
example : let w' := step Demo.cfg (Demo.at_ Demo.bridge) (Demo.by_ 1 (.br (.deposit 9990 [7] 1)))
    w'.evs = [.deposited 1 1 [7] 9990] ∧ w'.bal.freeOf 1 = 0 ∧ w'.bal.issuance = 92000 - 9997 ∧
      w'.bal.collected = 3 := by decide
-- the sum of fee and amount wraps to 2, but the fee and the amount are checked one by one
example : ∃ e, dispatch Demo.cfg (.br (.deposit (2 ^ 128 - 1) [7] 1)) (.signed 1) (Demo.at_ Demo.bridge) = .error e :=
  C55_overflow (by decide)

/-! ## C56 -/

/-- C56: when a mint or a deposit for a chain is announced, root or the committee has whitelisted this chain before, and
it is not the own chain. -/
theorem C56_added (hg : Genesis c w0) (l : List Op) (o : Op) (hl : ∀ x ∈ l ++ [o], x.Ok c) {e : Ev} {k : ChainId}
    (he : Spec.foreign e = some k) (h : Spec.emits c (run c w0 l) o e) :
    k ≠ c.chain ∧ ∃ l1 o' l2, l = l1 ++ o' :: l2 ∧ Spec.whitelists k o' := by
  have hl' : ∀ x ∈ l, x.Ok c := fun x hx => hl x (by simp [hx])
  have hs : ((run c w0 l).br.nonces.get k).isSome := by
    have hb : e.bridge = true := by cases e <;> simp_all [Spec.foreign, Ev.bridge]
    have hc := emits_count h
    have hs := step_br (run c w0 l) o (hl o (by simp))
    generalize step c (run c w0 l) o = w' at *
    cases hs with
    | quiet e he => rw [evs_bridge hb he] at hc; omega
    | ext hg hx h e he => rw [evs_bridge hb he] at hc; omega
    | @deposit a v r d n _ h1 hn h2 e he' =>
      rw [he', List.count_cons] at hc
      split at hc
      · rename_i h3
        simp only [beq_iff_eq] at h3
        subst h3
        simp [Spec.foreign] at he
        exact he ▸ h1
      · omega
    | @vote a k' t' x _ h1 h2 h3 h4 hbr he' hb' =>
      have : k' = k := by
        rw [he'] at hc
        have : e ∈ (if x.2 = true then [Ev.approved k' t'] else []) ++ [.voted k' t' a] := by
          rw [← List.count_pos_iff]
          rw [List.append_cons, List.count_append] at hc
          omega
        cases hx : x.2 <;> simp [hx] at this
        · subst this; simp [Spec.foreign] at he
        · rcases this with rfl | rfl <;> simp [Spec.foreign] at he
          exact he
      exact this ▸ h2
  have hr : Reach c (run c w0 l) := (Reach.init hg).run l hl'
  refine ⟨hr.chain.1 hs, ?_⟩
  obtain ⟨l1, o', l2, e1, ⟨g, x, e2, h1, h2⟩, _⟩ := run_since' (P := fun w => (w.br.nonces.get k).isSome)
    (Q := fun w o => AddsChain k o) (fun w o _ ho h => ((step_chain w o ho k).2 h).imp id And.left)
    (Reach.init hg) (by simp [hg.br.1]) l hl' hs
  exact ⟨l1, o', l2, e1, g, x, e2, h1, by rw [innermost_eq, h2]⟩

-- a deposit
example := C56_added (e := .deposited 1 1 [] 100) Demo.genesis Demo.bridge (Demo.by_ 1 (.br (.deposit 100 [] 1)))
  (by decide) rfl ⟨[.deposited 1 1 [] 100], by decide, by decide⟩

/-- C56: a whitelisted chain stays whitelisted. -/
theorem C56_stays (o : Op) (ho : o.Ok c) {k : ChainId} (h : (w.br.nonces.get k).isSome) :
    ((step c w o).br.nonces.get k).isSome := (step_chain w o ho k).1 h

-- chain 1 is added once more
example := C56_stays (c := Demo.cfg) (w := Demo.at_ Demo.bridge) (.call .root (.ext (.addChain 1))) (by decide) (k := 1) (by decide)

/-- C56: votes and deposits for other chains fail. -/
theorem C56_refused {k : ChainId} (h : w.br.nonces.get k = none) :
    (∀ t, ∃ e, dispatch c (.br (.vote k t)) (.signed a) w = .error e) ∧
    ∀ v r, ∃ e, dispatch c (.br (.deposit v r k)) (.signed a) w = .error e := by
  refine ⟨fun t => ?_, fun v r => ?_⟩
  · cases hd : dispatch c (.br (.vote k t)) (.signed a) w with
    | error e => exact ⟨e, rfl⟩
    | ok w' =>
      obtain ⟨_, _, h2, _⟩ := BrM.voteFor_ok hd
      simp [BrM.allowed, h] at h2
  · cases hd : dispatch c (.br (.deposit v r k)) (.signed a) w with
    | error e => exact ⟨e, rfl⟩
    | ok w' =>
      obtain ⟨_, _, h2, _⟩ := BrM.deposit_ok hd
      simp [BrM.allowed, h] at h2

-- the own chain cannot be whitelisted
example : (Demo.at_ [.call .root (.ext (.addChain 0)), .call .root (.ext (.addChain 1))]).br.nonces.get 0 = none ∧
    (Demo.at_ [.call .root (.ext (.addChain 0)), .call .root (.ext (.addChain 1))]).br.nonces.get 1 = some 0 := by
  decide
example : Spec.emits Demo.cfg (run Demo.cfg Demo.w0 Demo.bridge) (Demo.by_ 1 (.br (.deposit 100 [] 1))) (.deposited 1 1 [] 100) :=
  ⟨[.deposited 1 1 [] 100], by decide, by decide⟩

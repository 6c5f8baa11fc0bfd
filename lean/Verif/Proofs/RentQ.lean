import Verif.Proofs.Queues
import Verif.Proofs.RentSpec
/-
Invariant of the rent pallet's own storage: contracts, queues and offers agree.
-/
namespace RentM
open Queue

/-- One contract is well-formed. -/
structure ConWF (c : Cfg) (now : Block) (k : Contract) : Prop where
  start : k.start = none ↔ k.rentee = none
  full : 0 < full k.duration ∧ full k.duration ≤ c.rentMaxDur
  period : 0 < period k.duration ∧ period k.duration ≤ c.rentMaxDur
  rentFee : allowsRent k.duration k.rentFee = true
  fee1 : allowsCancel k.duration k.renterFee = true
  fee2 : allowsCancel k.duration k.renteeFee = true
  amount1 : feeTokens k.renterFee = 0 ∨ c.ed < feeTokens k.renterFee
  amount2 : feeTokens k.renteeFee = 0 ∨ c.ed < feeTokens k.renteeFee
  rentee : ∀ r, k.rentee = some r → ¬ c.pot r
  creation : k.creation ≤ now
  started : ∀ s, k.start = some s → k.creation ≤ s ∧ s ≤ now

/-- Contracts, queues and offers agree. -/
structure QInv (c : Cfg) (now : Block) (r : RentSt) : Prop where
  wfF : Queue.WF r.fixedQ
  wfS : Queue.WF r.subQ
  wfA : Queue.WF r.availQ
  len : r.fixedQ.length + r.subQ.length + r.availQ.length ≤ c.rentLimit
  inA : ∀ n b, (n, b) ∈ r.availQ → ∃ k, r.contracts.get n = some k ∧ k.rentee = none ∧
    b = k.creation + c.rentAvail
  inF : ∀ n b, (n, b) ∈ r.fixedQ → ∃ k s d, r.contracts.get n = some k ∧ k.rentee ≠ none ∧
    k.start = some s ∧ k.duration = .fixed d ∧ b = s + d
  inS : ∀ n b, (n, b) ∈ r.subQ → ∃ k s u, r.contracts.get n = some k ∧ k.rentee ≠ none ∧
    k.start = some s ∧ k.duration = .sub u ∧ s < b
  memA : ∀ n k, r.contracts.get n = some k → k.rentee = none → n ∈ ids r.availQ
  memF : ∀ n k d, r.contracts.get n = some k → k.rentee ≠ none → k.duration = .fixed d →
    n ∈ ids r.fixedQ
  memS : ∀ n k u, r.contracts.get n = some k → k.rentee ≠ none → k.duration = .sub u →
    n ∈ ids r.subQ
  con : ∀ n k, r.contracts.get n = some k → ConWF c now k
  offers : ∀ n k, r.contracts.get n = some k → k.rentee ≠ none → r.offers.get n = none
  offersOk : ∀ n l, r.offers.get n = some l → ∀ x ∈ l, ¬ c.pot x

variable {c : Cfg} {now : Block} {r : RentSt}

theorem QInv.notA (h : QInv c now r) {n k} (hk : r.contracts.get n = some k)
    (hr : k.rentee ≠ none) : n ∉ ids r.availQ := by
  rw [mem_ids]; rintro ⟨b, hb⟩
  obtain ⟨k', h1, h2, _⟩ := h.inA n b hb
  rw [hk] at h1; simp at h1; subst h1; exact hr h2

theorem QInv.notF (h : QInv c now r) {n k} (hk : r.contracts.get n = some k)
    (hr : k.rentee = none ∨ ∃ u, k.duration = .sub u) : n ∉ ids r.fixedQ := by
  rw [mem_ids]; rintro ⟨b, hb⟩
  obtain ⟨k', s, d, h1, h2, h3, h4, _⟩ := h.inF n b hb
  rw [hk] at h1; simp at h1; subst h1
  rcases hr with hr | ⟨u, hr⟩
  · exact h2 hr
  · rw [h4] at hr; simp at hr

theorem QInv.notS (h : QInv c now r) {n k} (hk : r.contracts.get n = some k)
    (hr : k.rentee = none ∨ ∃ d, k.duration = .fixed d) : n ∉ ids r.subQ := by
  rw [mem_ids]; rintro ⟨b, hb⟩
  obtain ⟨k', s, d, h1, h2, h3, h4, _⟩ := h.inS n b hb
  rw [hk] at h1; simp at h1; subst h1
  rcases hr with hr | ⟨u, hr⟩
  · exact h2 hr
  · rw [h4] at hr; simp at hr

theorem QInv.absent (h : QInv c now r) {n} (hk : r.contracts.get n = none) :
    n ∉ ids r.fixedQ ∧ n ∉ ids r.subQ ∧ n ∉ ids r.availQ := by
  simp only [mem_ids]
  refine ⟨?_, ?_, ?_⟩ <;> rintro ⟨b, hb⟩
  · obtain ⟨k, _, _, h1, _⟩ := h.inF n b hb; rw [hk] at h1; simp at h1
  · obtain ⟨k, _, _, h1, _⟩ := h.inS n b hb; rw [hk] at h1; simp at h1
  · obtain ⟨k, h1, _⟩ := h.inA n b hb; rw [hk] at h1; simp at h1

theorem ConWF.later {k : Contract} (h : ConWF c now k) {now' : Block} (hn : now ≤ now') :
    ConWF c now' k := by
  obtain ⟨h1, h2, h3, h4, h5, h6, h7, h8, h9, h10, h11⟩ := h
  exact ⟨h1, h2, h3, h4, h5, h6, h7, h8, h9, by omega, fun s hs => by have := h11 s hs; omega⟩

theorem QInv.later (h : QInv c now r) {now' : Block} (hn : now ≤ now') : QInv c now' r :=
  { h with con := fun n k hk => (h.con n k hk).later hn }

/-- a new contract becomes available -/
theorem QInv.create (h : QInv c now r) {n k} (hn : r.contracts.get n = none)
    (hl : r.fixedQ.length + r.subQ.length + r.availQ.length + 1 ≤ c.rentLimit)
    (hk : ConWF c now k) (hr : k.rentee = none) (hc : k.creation = now) :
    QInv c now { r with
      availQ := Queue.ins n (now + c.rentAvail) r.availQ
      contracts := r.contracts.insert n k } := by
  obtain ⟨nF, nS, nA⟩ := h.absent hn
  constructor
  case wfF => exact h.wfF
  case wfS => exact h.wfS
  case wfA => exact h.wfA.ins nA
  case len => simp only [length_ins]; omega
  case inA =>
    intro m b hm
    rcases mem_ins.1 hm with e | hm0
    · simp at e; obtain ⟨rfl, rfl⟩ := e; exact ⟨k, by simp, hr, by rw [hc]⟩
    · have : m ≠ n := by rintro rfl; exact nA (mem_ids.2 ⟨b, hm0⟩)
      simpa [FMap.get_insert, this] using h.inA m b hm0
  case inF =>
    intro m b hm
    have : m ≠ n := by rintro rfl; exact nF (mem_ids.2 ⟨b, hm⟩)
    simpa [FMap.get_insert, this] using h.inF m b hm
  case inS =>
    intro m b hm
    have : m ≠ n := by rintro rfl; exact nS (mem_ids.2 ⟨b, hm⟩)
    simpa [FMap.get_insert, this] using h.inS m b hm
  case memA =>
    intro m k' hk' hr'
    simp only [FMap.get_insert] at hk'
    rw [mem_ids_ins]
    split at hk'
    · exact Or.inl ‹_›
    · exact Or.inr (h.memA m k' hk' hr')
  case memF =>
    intro m k' d hk' hr' hd
    simp only [FMap.get_insert] at hk'
    split at hk'
    · simp at hk'; subst hk'; exact absurd hr hr'
    · exact h.memF m k' d hk' hr' hd
  case memS =>
    intro m k' d hk' hr' hd
    simp only [FMap.get_insert] at hk'
    split at hk'
    · simp at hk'; subst hk'; exact absurd hr hr'
    · exact h.memS m k' d hk' hr' hd
  case con =>
    intro m k' hk'
    simp only [FMap.get_insert] at hk'
    split at hk'
    · simp at hk'; subst hk'; exact hk
    · exact h.con m k' hk'
  case offers =>
    intro m k' hk' hr'
    simp only [FMap.get_insert] at hk'
    split at hk'
    · simp at hk'; subst hk'; exact absurd hr hr'
    · exact h.offers m k' hk' hr'
  case offersOk => exact h.offersOk

/-- a contract ends: it leaves its queue -/
theorem QInv.ended (h : QInv c now r) {n} :
    QInv c now { r with
      fixedQ := r.fixedQ.remove n, subQ := r.subQ.remove n, availQ := r.availQ.remove n
      contracts := r.contracts.erase n } := by
  constructor
  case wfF => exact h.wfF.remove
  case wfS => exact h.wfS.remove
  case wfA => exact h.wfA.remove
  case len =>
    have := h.len
    have := @length_remove_le n r.fixedQ
    have := @length_remove_le n r.subQ
    have := @length_remove_le n r.availQ
    dsimp only; omega
  case inA =>
    intro m b hm
    obtain ⟨hm, hn⟩ := (mem_remove h.wfA).1 hm
    have := h.inA m b hm
    simpa [FMap.get_erase, show m ≠ n from hn] using this
  case inF =>
    intro m b hm
    obtain ⟨hm, hn⟩ := (mem_remove h.wfF).1 hm
    have := h.inF m b hm
    simpa [FMap.get_erase, show m ≠ n from hn] using this
  case inS =>
    intro m b hm
    obtain ⟨hm, hn⟩ := (mem_remove h.wfS).1 hm
    have := h.inS m b hm
    simpa [FMap.get_erase, show m ≠ n from hn] using this
  case memA =>
    intro m k' hk' hr'
    simp only [FMap.get_erase] at hk'
    split at hk'
    · simp at hk'
    · exact (mem_ids_remove h.wfA).2 ⟨h.memA m k' hk' hr', ‹_›⟩
  case memF =>
    intro m k' d hk' hr' hd
    simp only [FMap.get_erase] at hk'
    split at hk'
    · simp at hk'
    · exact (mem_ids_remove h.wfF).2 ⟨h.memF m k' d hk' hr' hd, ‹_›⟩
  case memS =>
    intro m k' d hk' hr' hd
    simp only [FMap.get_erase] at hk'
    split at hk'
    · simp at hk'
    · exact (mem_ids_remove h.wfS).2 ⟨h.memS m k' d hk' hr' hd, ‹_›⟩
  case con =>
    intro m k' hk'
    simp only [FMap.get_erase] at hk'
    split at hk'
    · simp at hk'
    · exact h.con m k' hk'
  case offers =>
    intro m k' hk' hr'
    simp only [FMap.get_erase] at hk'
    split at hk'
    · simp at hk'
    · exact h.offers m k' hk' hr'
  case offersOk => exact h.offersOk

/-- offers change on a contract that is not running -/
theorem QInv.setOffers (h : QInv c now r) {n o}
    (hk : o ≠ none → ∀ k, r.contracts.get n = some k → k.rentee = none)
    (ho : ∀ l, o = some l → ∀ x ∈ l, ¬ c.pot x) :
    QInv c now { r with offers := r.offers.set n o } := by
  refine { h with offers := ?_, offersOk := ?_ }
  · intro m k' hk' hr'
    simp only [FMap.get_set]
    split
    · rename_i e; subst e
      by_contra hc; exact hr' (hk hc k' hk')
    · exact h.offers m k' hk' hr'
  · intro m l hl
    simp only [FMap.get_set] at hl
    split at hl
    · exact ho l hl
    · exact h.offersOk m l hl

/-- terms change -/
theorem QInv.terms (h : QInv c now r) {n k k'} (hk : r.contracts.get n = some k)
    (hs : k'.start = k.start) (hr : k'.rentee = k.rentee) (hc : k'.creation = k.creation)
    {u u' : Subscription} (hd : k.duration = .sub u) (hd' : k'.duration = .sub u')
    (hw : ConWF c now k') :
    QInv c now { r with contracts := r.contracts.insert n k' } := by
  constructor
  case wfF => exact h.wfF
  case wfS => exact h.wfS
  case wfA => exact h.wfA
  case len => exact h.len
  case inA =>
    intro m b hm
    obtain ⟨k0, h1, h2, h3⟩ := h.inA m b hm
    by_cases e : m = n
    · subst e; rw [hk] at h1; simp at h1; subst h1
      exact ⟨k', by simp, by rw [hr, h2], by rw [hc, h3]⟩
    · exact ⟨k0, by simpa [FMap.get_insert, e] using h1, h2, h3⟩
  case inF =>
    intro m b hm
    obtain ⟨k0, s, d, h1, h2, h3, h4, h5⟩ := h.inF m b hm
    by_cases e : m = n
    · subst e; rw [hk] at h1; simp at h1; subst h1
      rw [hd] at h4; simp at h4
    · exact ⟨k0, s, d, by simpa [FMap.get_insert, e] using h1, h2, h3, h4, h5⟩
  case inS =>
    intro m b hm
    obtain ⟨k0, s, d, h1, h2, h3, h4, h5⟩ := h.inS m b hm
    by_cases e : m = n
    · subst e; rw [hk] at h1; simp at h1; subst h1
      exact ⟨k', s, u', by simp, by rw [hr]; exact h2, by rw [hs]; exact h3, hd', h5⟩
    · exact ⟨k0, s, d, by simpa [FMap.get_insert, e] using h1, h2, h3, h4, h5⟩
  case memA =>
    intro m k0 hk0 hr0
    simp only [FMap.get_insert] at hk0
    split at hk0
    · rename_i e; subst e; simp at hk0; subst hk0
      exact h.memA m k hk (by rw [← hr, hr0])
    · exact h.memA m k0 hk0 hr0
  case memF =>
    intro m k0 d hk0 hr0 hd0
    simp only [FMap.get_insert] at hk0
    split at hk0
    · rename_i e; subst e; simp at hk0; subst hk0
      rw [hd'] at hd0; simp at hd0
    · exact h.memF m k0 d hk0 hr0 hd0
  case memS =>
    intro m k0 d hk0 hr0 hd0
    simp only [FMap.get_insert] at hk0
    split at hk0
    · rename_i e; subst e; simp at hk0; subst hk0
      exact h.memS m k u hk (by rw [← hr]; exact hr0) hd
    · exact h.memS m k0 d hk0 hr0 hd0
  case con =>
    intro m k0 hk0
    simp only [FMap.get_insert] at hk0
    split at hk0
    · simp at hk0; subst hk0; exact hw
    · exact h.con m k0 hk0
  case offers =>
    intro m k0 hk0 hr0
    simp only [FMap.get_insert] at hk0
    split at hk0
    · rename_i e; subst e; simp at hk0; subst hk0
      exact h.offers m k hk (by rw [← hr]; exact hr0)
    · exact h.offers m k0 hk0 hr0
  case offersOk => exact h.offersOk

/-- an available contract starts -/
theorem QInv.started (h : QInv c now r) {n k a r'} (hk : r.contracts.get n = some k)
    (hr : k.rentee = none) (ha : ¬ c.pot a)
    (hi : insertKind c { r with availQ := r.availQ.remove n } k.duration n
        (now + RentM.period k.duration) = some r') :
    QInv c now { r' with
      offers := r.offers.erase n
      contracts := r.contracts.insert n { k with rentee := some a, start := some now } } := by
  have nF := h.notF hk (Or.inl hr)
  have nS := h.notS hk (Or.inl hr)
  have kw := h.con n k hk
  have kw' : ConWF c now { k with rentee := some a, start := some now } := by
    obtain ⟨h1, h2, h3, h4, h5, h6, h7, h8, h9, h10, h11⟩ := kw
    exact ⟨by simp, h2, h3, h4, h5, h6, h7, h8, by simpa using ha, h10, by simpa using h10⟩
  have inA' : ∀ m b, (m, b) ∈ r.availQ.remove n → ∃ k',
      (r.contracts.insert n { k with rentee := some a, start := some now }).get m = some k' ∧
      k'.rentee = none ∧ b = k'.creation + c.rentAvail := by
    intro m b hm
    obtain ⟨hm, hn⟩ := (mem_remove h.wfA).1 hm
    have := h.inA m b hm
    simpa [FMap.get_insert, show m ≠ n from hn] using this
  have memA' : ∀ m k', (r.contracts.insert n { k with rentee := some a, start := some now }).get m
      = some k' → k'.rentee = none → m ∈ ids (r.availQ.remove n) := by
    intro m k' hk' hr'
    simp only [FMap.get_insert] at hk'
    split at hk'
    · simp at hk'; subst hk'; simp at hr'
    · exact (mem_ids_remove h.wfA).2 ⟨h.memA m k' hk' hr', ‹_›⟩
  have con' : ∀ m k', (r.contracts.insert n { k with rentee := some a, start := some now }).get m
      = some k' → ConWF c now k' := by
    intro m k' hk'
    simp only [FMap.get_insert] at hk'
    split at hk'
    · simp at hk'; subst hk'; exact kw'
    · exact h.con m k' hk'
  have offers' : ∀ m k', (r.contracts.insert n { k with rentee := some a, start := some now }).get m
      = some k' → k'.rentee ≠ none → (r.offers.erase n).get m = none := by
    intro m k' hk' hr'
    simp only [FMap.get_insert] at hk'
    simp only [FMap.get_erase]
    split at hk'
    · simp [*]
    · simp only [if_neg ‹_›]; exact h.offers m k' hk' hr'
  have offersOk' : ∀ m l, (r.offers.erase n).get m = some l → ∀ x ∈ l, ¬ c.pot x := by
    intro m l hl
    simp only [FMap.get_erase] at hl
    split at hl
    · simp at hl
    · exact h.offersOk m l hl
  have hlen := length_remove (h.memA n k hk hr)
  have hl := h.len
  unfold insertKind at hi
  cases hd : k.duration with
  | fixed d =>
    simp only [hd, Option.map_eq_some_iff] at hi
    obtain ⟨q, hq, rfl⟩ := hi
    obtain ⟨_, rfl⟩ := insert_some hq
    constructor
    case wfF => exact h.wfF.ins nF
    case wfS => exact h.wfS
    case wfA => exact h.wfA.remove
    case len => simp only [length_ins]; omega
    case inA => exact hd ▸ inA'
    case inF =>
      intro m b hm
      rcases mem_ins.1 hm with e | hm0
      · simp at e; obtain ⟨rfl, rfl⟩ := e
        exact ⟨_, now, d, FMap.get_insert_self _ _ _, by simp, rfl, by simp, rfl⟩
      · have : m ≠ n := by rintro rfl; exact nF (mem_ids.2 ⟨b, hm0⟩)
        simpa [FMap.get_insert, this] using h.inF m b hm0
    case inS =>
      intro m b hm
      have : m ≠ n := by rintro rfl; exact nS (mem_ids.2 ⟨b, hm⟩)
      simpa [FMap.get_insert, this] using h.inS m b hm
    case memA => exact hd ▸ memA'
    case memF =>
      intro m k' d' hk' hr' hd'
      simp only [FMap.get_insert] at hk'
      rw [mem_ids_ins]
      split at hk'
      · exact Or.inl ‹_›
      · exact Or.inr (h.memF m k' d' hk' hr' hd')
    case memS =>
      intro m k' d' hk' hr' hd'
      simp only [FMap.get_insert] at hk'
      split at hk'
      · simp at hk'; subst hk'; simp at hd'
      · exact h.memS m k' d' hk' hr' hd'
    case con => exact hd ▸ con'
    case offers => exact hd ▸ offers'
    case offersOk => exact offersOk'
  | sub u =>
    simp only [hd, Option.map_eq_some_iff] at hi
    obtain ⟨q, hq, rfl⟩ := hi
    obtain ⟨_, rfl⟩ := insert_some hq
    have hp := kw.period
    rw [hd] at hp
    constructor
    case wfF => exact h.wfF
    case wfS => exact h.wfS.ins nS
    case wfA => exact h.wfA.remove
    case len => simp only [length_ins]; omega
    case inA => exact hd ▸ inA'
    case inF =>
      intro m b hm
      have : m ≠ n := by rintro rfl; exact nF (mem_ids.2 ⟨b, hm⟩)
      simpa [FMap.get_insert, this] using h.inF m b hm
    case inS =>
      intro m b hm
      rcases mem_ins.1 hm with e | hm0
      · simp at e; obtain ⟨rfl, rfl⟩ := e
        exact ⟨_, now, u, FMap.get_insert_self _ _ _, by simp, rfl, by simp, by omega⟩
      · have : m ≠ n := by rintro rfl; exact nS (mem_ids.2 ⟨b, hm0⟩)
        simpa [FMap.get_insert, this] using h.inS m b hm0
    case memA => exact hd ▸ memA'
    case memF =>
      intro m k' d' hk' hr' hd'
      simp only [FMap.get_insert] at hk'
      split at hk'
      · simp at hk'; subst hk'; simp at hd'
      · exact h.memF m k' d' hk' hr' hd'
    case memS =>
      intro m k' d' hk' hr' hd'
      simp only [FMap.get_insert] at hk'
      rw [mem_ids_ins]
      split at hk'
      · exact Or.inl ‹_›
      · exact Or.inr (h.memS m k' d' hk' hr' hd')
    case con => exact hd ▸ con'
    case offers => exact hd ▸ offers'
    case offersOk => exact offersOk'

/-- starting an available contract finds room in the queue -/
theorem QInv.insert_room (h : QInv c now r) {n k} (hk : r.contracts.get n = some k)
    (hr : k.rentee = none) (b : Block) :
    ∃ r', insertKind c { r with availQ := r.availQ.remove n } k.duration n b = some r' := by
  have hlen := length_remove (h.memA n k hk hr)
  have hl := h.len
  unfold insertKind
  cases k.duration with
  | fixed d =>
    simp only [insert_of_lt (show r.fixedQ.length < c.rentLimit by omega)]
    exact ⟨_, rfl⟩
  | sub u =>
    simp only [insert_of_lt (show r.subQ.length < c.rentLimit by omega)]
    exact ⟨_, rfl⟩

/-- a subscription is renewed: its entry moves -/
theorem QInv.renew (h : QInv c now r) {n b x t} (hq : r.subQ = (n, x) :: t)
    (hb : now < b) : QInv c now { r with subQ := Queue.ins n b t } := by
  have wf : Queue.WF ((n, x) :: t) := hq ▸ h.wfS
  have hn := wf.head
  obtain ⟨k, s, u, h1, h2, h3, h4, h5⟩ := h.inS n x (by rw [hq]; simp)
  have hs := (h.con n k h1).started s h3
  refine { h with wfS := wf.tail.ins hn, len := ?_, inS := ?_, memS := ?_ }
  · have := h.len
    rw [hq] at this
    simp only [length_ins]
    simpa using this
  · intro m y hm
    rcases mem_ins.1 hm with e | hm0
    · simp at e; obtain ⟨rfl, rfl⟩ := e
      exact ⟨k, s, u, h1, h2, h3, h4, by omega⟩
    · exact h.inS m y (by rw [hq]; exact List.mem_cons_of_mem _ hm0)
  · intro m k' d' hk' hr' hd'
    have := h.memS m k' d' hk' hr' hd'
    rw [hq] at this
    rw [mem_ids_ins]
    simpa [ids] using this

end RentM

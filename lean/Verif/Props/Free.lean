import Mathlib.Algebra.BigOperators.Ring.Finset
import Verif.Proofs.Free
/-
Property C108: calls without transaction fee are limited by calls with one.
-/
open Spec
variable {c : Cfg} {w : World}

/-- In every run, the shares reported for a part of an NFT, which enclaves report free of charge, are at most those missing
at the start and `ShardsNumber` for each call that made this part wait; what is missing in the end is counted too. -/
theorem C108 (hc : c.Ok) (hr : Reach c w) (k : Part × NFTId) (l : List Op) (hl : ∀ o ∈ l, o.Ok c) :
    count c (Reported c k) w l + missing c k (run c w l) ≤ missing c k w + c.shards * count c (Begun c k) w l :=
  run_missing hc k l hr hl

/-- From the start of the chain on, all accepted signed calls without fee together are at most `ShardsNumber` times those
calls with fee that give an NFT a secret or capsule or ask for new shares of a capsule. -/
theorem C108_all (hc : c.Ok) (hg : Genesis c w) (l : List Op) (hl : ∀ o ∈ l, o.Ok c) :
    count c (Gratis c) w l ≤ c.shards * count c (Begins c) w l := by
  have hr : Reach c w := .init hg
  let K := (l.filterMap shareOf).toFinset
  have h1 : count c (Gratis c) w l ≤ ∑ k ∈ K, count c (Reported c k) w l :=
    count_gratis K l fun o ho k hk => by simp only [K, List.mem_toFinset, List.mem_filterMap]; exact ⟨o, ho, hk⟩
  have h2 : ∀ k ∈ K, count c (Reported c k) w l ≤ c.shards * count c (Begun c k) w l := by
    intro k _
    have h := C108 hc hr k l hl
    have : missing c k w = 0 := by simp [missing, Waiting, hg.nfts]
    omega
  have h3 : ∑ k ∈ K, count c (Begun c k) w l ≤ count c (Begins c) w l := count_begun K l
  calc _ ≤ _ := h1
    _ ≤ _ := Finset.sum_le_sum h2
    _ = _ := (Finset.mul_sum _ _ _).symm
    _ ≤ _ := Nat.mul_le_mul_left _ h3

/-- The calls that make an NFT wait are accepted and not free, and nothing else makes it wait. -/
theorem C108_paid (hc : c.Ok) (hr : Reach c w) (o : Op) (ho : o.Ok c) (k : Part × NFTId) :
    (Begins c w o = true → Accepted c w o = true ∧ Gratis c w o = false) ∧
    (Waiting k w = false → Waiting k (step c w o) = true → Begun c k w o = true) := by
  refine ⟨fun h => ?_, fun h1 h2 => ?_⟩
  · unfold Begins at h
    split at h
    · rename_i a x
      simp only [Bool.and_eq_true] at h
      refine ⟨h.2, ?_⟩
      cases x <;> simp [begins] at h <;> simp [Gratis, Call.free]
    · simp at h
  · obtain ⟨p, n⟩ := k
    rcases step_core hc hr o ho with ⟨a, x, rfl, ha, hx⟩ | ⟨h, _⟩
    · exact Begun_iff.2 ⟨a, x, rfl, NftM.call_begins hx h1 h2, _, hx⟩
    · have h3 := h n
      unfold Waiting at h1 h2
      dsimp only at h1 h2
      cases h4 : w.nfts.get n <;> cases h5 : (step c w o).nfts.get n <;> rw [h4, h5] at h3 <;> simp at h3
      · rw [h5] at h2; simp at h2
      · simp only [NFTData.core, Prod.mk.injEq] at h3
        rw [h4] at h1; rw [h5] at h2
        cases p <;> simp [Part.waits, h3] at h1 h2 <;> rw [h1] at h2 <;> simp at h2

/-- For the secret of one NFT, no more than `ShardsNumber` shares are ever reported. -/
theorem C108_secret (hc : c.Ok) (hr : Reach c w) (n : NFTId) (l : List Op) (hl : ∀ o ∈ l, o.Ok c) :
    count c (Reported c (.secret, n)) w l ≤ c.shards := by
  have h := C108 hc hr (.secret, n) l hl
  obtain ⟨h1, h2⟩ := count_sealed (n := n) hc l hr hl
  by_cases hw : Waiting (.secret, n) w = true
  · have hs : Sealed w n := by
      cases hd : w.nfts.get n with
      | none => simp [Waiting, hd] at hw
      | some d =>
        refine ⟨?_, fun d' hd' => ?_⟩
        · by_contra hge
          rw [(hr.inv hc).fresh n (by omega)] at hd; simp at hd
        · rw [hd] at hd'; simp at hd'; subst hd'
          exact (((hr.inv hc).good n).nft d hd).syncSecret (by simpa [Waiting, hd, Part.waits] using hw)
    rw [h1 hs] at h
    have := missing_le (c := c) (.secret, n) w
    omega
  · have : missing c (.secret, n) w = 0 := by simp [missing, hw]
    have := Nat.mul_le_mul_left c.shards h2
    omega

namespace Demo
/-- two shares of a secret, a share that comes too late, a capsule, its two shares, a call for new ones, one of them -/
abbrev reports : List Op := enclaves ++
  [by_ 1 (.nft (.createSecret [1] [2] ⟨0, by omega⟩ none false)), by_ 18 (.nft (.addSecretShard 0)),
   by_ 19 (.nft (.addSecretShard 0)), by_ 18 (.nft (.addSecretShard 0)),
   by_ 1 (.nft (.toCapsule 0 [3])), by_ 18 (.nft (.addCapsuleShard 0)), by_ 19 (.nft (.addCapsuleShard 0)),
   by_ 1 (.nft (.notifyKey 0)), by_ 18 (.nft (.addCapsuleShard 0))]
end Demo

-- five calls are free, three make an NFT wait, of which one has still to be served
set_option maxRecDepth 100000 in
example : (∀ o ∈ Demo.reports, o.Ok Demo.cfg) ∧ Demo.cfg.shards = 2 ∧
    count Demo.cfg (Gratis Demo.cfg) Demo.w0 Demo.reports = 5 ∧
    count Demo.cfg (Begins Demo.cfg) Demo.w0 Demo.reports = 3 ∧
    count Demo.cfg (Reported Demo.cfg (.secret, 0)) Demo.w0 Demo.reports = 2 ∧
    count Demo.cfg (Reported Demo.cfg (.capsule, 0)) Demo.w0 Demo.reports = 3 ∧
    missing Demo.cfg (.capsule, 0) (Demo.at_ Demo.reports) = 1 :=
  ⟨by decide, by decide, by decide, by decide, by decide, by decide, by decide⟩

example := C108 Demo.cfg_ok (Demo.reach [] (by decide)) (.capsule, 0) Demo.reports (by decide)

example := C108_all Demo.cfg_ok Demo.genesis Demo.reports (by decide)

-- the keys of a synced capsule are changed
example := C108_paid Demo.cfg_ok (Demo.reach (Demo.reports.take 14) (by decide)) (Demo.by_ 1 (.nft (.notifyKey 0)))
  (by decide) (.capsule, 0)

example := C108_secret Demo.cfg_ok (Demo.reach [] (by decide)) 0 Demo.reports (by decide)

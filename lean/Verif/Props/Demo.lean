import Verif.Proofs.Lift
/-
A concrete chain, used by the examples that show the hypotheses of the property theorems are met by
reachable, non-trivial worlds.  Accounts 1–9 are users with 10000 tokens each; 101–104 are the
pallets' accounts.
-/
namespace Demo

/-- a small configuration -/
def cfg : Cfg where
  ed := 10
  shards := 2
  collLimit := 5
  minDur := 5
  maxDur := 100
  maxDelay := 20
  grace := 5
  ending := 3
  bidLimit := 2
  aucLimit := 10
  aucActions := 5
  aucPot := 101
  rentLimit := 10
  rentActions := 5
  rentAvail := 20
  rentMaxDur := 100
  rentAccounts := 5
  rentPot := 102
  trMaxDur := 100
  trConsents := 5
  trLimit := 10
  trActions := 5
  clusterSize := 3
  teeList := 5
  bonding := 10
  teePot := 103
  history := 4
  chain := 0
  proposalLife := 10
  relayerLimit := 5
  rewPot := 104

theorem cfg_ok : cfg.Ok := by constructor <;> decide

/-- free balances at genesis -/
def free0 : FMap AccountId Balance :=
  ⟨[(1, 10000), (2, 10000), (3, 10000), (4, 10000), (5, 10000), (6, 10000), (7, 10000),
    (8, 10000), (9, 10000), (103, 1000), (104, 1000)], by decide⟩

/-- the genesis -/
def w0 : World where
  now := 0
  active := none
  bal := { free := free0, tee := .empty, other := .empty, issuance := 92000, collected := 0 }
  nfts := .empty
  nft := {
    fee := 5, secretFee := 6, capsuleFee := 7, nextNft := 0, nextColl := 0, colls := .empty,
    deleg := .empty, secretData := .empty, secretShards := .empty, capsuleData := .empty,
    capsuleShards := .empty }
  mkt := {
    fee := 8, next := 0, mkts := .empty, sales := .empty }
  auc := {
    auctions := .empty, deadlines := [], claims := .empty, comm := .empty }
  rent := {
    contracts := .empty, fixedQ := [], subQ := [], availQ := [], offers := .empty }
  tr := {
    feeAt := 1, feeReset := 2, feeConsent := 3, feeConsentAt := 4, trans := .empty,
    consents := .empty, queue := [] }
  tee := {
    registrations := .empty, unregs := [], updates := .empty, data := .empty,
    accOp := .empty, clusters := .empty, nextCluster := 0, opCluster := .empty, servers := [],
    stakingAmount := 50, ledger := .empty, reports := .empty, weights := ⟨20, 20, 20, 20, 20⟩,
    pool := 100, claimed := .empty, assignedEra := .empty }
  br := {
    nonces := .empty, threshold := 2, relayers := [], votes := .empty, fee := 3 }
  rew := {
    extra := 100, acc := 0 }
  evs := []

theorem genesis : Genesis cfg w0 where
  bal := by
    refine ⟨rfl, fun _ _ => rfl, ?_, by decide, by decide⟩
    intro a v h
    have : (a, v) ∈ free0.l := FMap.get_some_iff_mem.1 h
    revert this; unfold free0 cfg
    simp only [List.mem_cons, Prod.mk.injEq, List.not_mem_nil, or_false]
    omega
  nfts := rfl
  nft := by simp [w0]
  mkt := by simp [w0]
  auc := by simp [w0]
  rent := by simp [w0]
  tr := by simp [w0]
  tee := by simp [w0]
  br := by simp [w0]
  rew := rfl
  evs := rfl

instance (o : Op) : Decidable (o.Ok cfg) := by
  unfold Op.Ok; split <;> infer_instance

/-- the world after some operations -/
def at_ (l : List Op) : World := run cfg w0 l

theorem reach (l : List Op) (h : ∀ o ∈ l, o.Ok cfg) : Reach cfg (at_ l) :=
  (Reach.init genesis).run l h

/-- an accepted call leads to the next world -/
theorem accepted {l : List Op} {x : Call} {o : Origin} (h : (dispatch cfg x o (at_ l)).isOk = true) :
    dispatch cfg x o (at_ l) = .ok (at_ (l ++ [.call o x])) := by
  have e : at_ (l ++ [.call o x]) = orSame (at_ l) (dispatch cfg x o (at_ l)) := by
    simp only [at_, run_append]; rfl
  rw [e]
  cases hd : dispatch cfg x o (at_ l) with
  | ok w' => rfl
  | error e => rw [hd] at h; cases h

/-- a signed call -/
abbrev by_ (a : AccountId) (x : Call) : Op := .call (.signed a) x
/-- `k` block starts -/
abbrev ticks (k : Nat) : List Op := List.replicate k .tick

/-- account 1 creates NFT 0 -/
abbrev mint1 : Op := by_ 1 (.nft (.createNft [1] ⟨100000, by omega⟩ none false))

/-- operators 8 and 9 run the enclaves 18 and 19 in the public cluster 0; server 7 reports metrics -/
abbrev enclaves : List Op :=
  [by_ 8 (.tee (.register 18 [1])), by_ 9 (.tee (.register 19 [1])),
   .call .root (.root (.tee (.createCluster .pub))), .era 5,
   .call .root (.root (.tee (.assign 8 0 0))), .call .root (.root (.tee (.assign 9 0 1))),
   .call .root (.root (.tee (.registerServer ⟨7, .pub⟩)))]

end Demo

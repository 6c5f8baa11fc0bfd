import Verif.Conform.Base
/-
The tests of tee/src/tests/extrinsics.rs and traits.rs on the model.
-/
namespace Conform.Tee

/-- tee/src/tests/mock.rs: the constants -/
def c : Cfg :=
  { cfg0 with ed := 1, clusterSize := 2, teeList := 10, bonding := 10, history := 50 }

/-- `ExtBuilder::default().tokens(l).build()` with the amounts of the mock -/
def ext (l : List (AccountId × Balance)) : World :=
  let w := blank l
  { w with tee := { w.tee with stakingAmount := 20, pool := 2000 } }

/-- the tokens of most tests -/
abbrev std : World := ext [(1, 1000), (3, 100)]

/-- accounts: ALICE 1, BOB 2, CHARLIE 3, DAVE 4, enclaves of the first three 5, 6 and 7, EVE 8 -/
abbrev by_ (a : AccountId) (x : TeeM.Call) : Act := sg a (.tee x)
/-- a call as root -/
abbrev r (x : TeeM.RootCall) : Act := rt (.root (.tee x))

/-- `start_active_era(1)`: block 3; all that matters is that there is an active era -/
abbrev era : Act := .poke fun w => { w with now := 3, active := some 1 }

/-- `b"test"` -/
abbrev uri : Data := [116, 101, 115, 116]
/-- `"new_api_uri"` -/
abbrev uri2 : Data := [110, 101, 119, 95, 97, 112, 105, 95, 117, 114, 105]

/-- ALICE has enclave CHARLIE in slot 0 of cluster 0 -/
def assigned : List Act :=
  [era, by_ 1 (.register 3 uri), r (.createCluster .pub), r (.assign 1 0 0)]

/-- the last event of a call that must succeed -/
def last (w : World) (l : List Act) (o : Origin) (x : Call) : Option TeeEvent :=
  match play c w l with
  | none => none
  | some w' =>
    match dispatch c x o w' with
    | .ok _ => (teeEmit c w' (.call o x)).getLast?
    | .error _ => none

/-- `assert_noop!` of a call by root after the steps `l` -/
abbrev BadRoot (w : World) (l : List Act) (x : TeeM.RootCall) (e : String) : Prop :=
  fails c w l .root (.root (.tee x)) = some (.e e)
/-- `assert_noop!` of a signed call after the steps `l` -/
abbrev Bad (w : World) (l : List Act) (a : AccountId) (x : TeeM.Call) (e : String) : Prop :=
  fails c w l (.signed a) (.tee x) = some (.e e)
/-- `bad_origin`: the origin of a call by root is checked -/
abbrev NotRoot (x : TeeM.RootCall) : Prop := fails c std [] (.signed 1) (.root (.tee x)) = some (.e "BadOrigin")

/-- `assert_ok!` of a call by root, its last event, and what is seen afterwards -/
abbrev GoodRoot {α : Type} (w : World) (l : List Act) (x : TeeM.RootCall) (e : TeeEvent) (f : World → α) (v : α) : Prop :=
  last w l .root (.root (.tee x)) = some e ∧ see c w (l ++ [r x]) f = some v
/-- `assert_ok!` of a signed call, its last event, and what is seen afterwards -/
abbrev Good {α : Type} (w : World) (l : List Act) (a : AccountId) (x : TeeM.Call) (e : TeeEvent) (f : World → α) (v : α) :
    Prop :=
  last w l (.signed a) (.tee x) = some e ∧ see c w (l ++ [by_ a x]) f = some v

/-- what the pallet knows of an operator: registration, enclave, update request, cluster, stake -/
abbrev about (a : AccountId) (w : World) :
    Option Enclave × Option Enclave × Option Enclave × Option ClusterId × Option Ledger :=
  (w.tee.registrations.get a, w.tee.data.get a, w.tee.updates.get a, w.tee.opCluster.get a, w.tee.ledger.get a)

/-- what it knows of cluster 0 -/
abbrev members (w : World) : Option (List (AccountId × SlotId)) := (w.tee.clusters.get 0).map (·.enclaves)

/-! `mod register_enclave` -/

/-- `register_enclave` -/
example : Good std [] 1 (.register 3 uri) (.bonded 1 20)
    (fun w => (about 1 w, w.tee.accOp.get 1))
    ((some ⟨3, uri⟩, none, none, none, some ⟨1, 20, false, 0⟩), none) := ⟨rfl, rfl⟩

/-- `operator_and_enclave_are_the_same` -/
example : Bad std [] 1 (.register 1 uri) "OperatorAndEnclaveAreSame" := rfl

/-- `registration_already_exists` -/
example : Bad std [by_ 1 (.register 3 uri)] 1 (.register 3 uri) "RegistrationAlreadyExists" := rfl

/-- `operator_already_exists` -/
example : Bad std assigned 1 (.register 3 uri) "OperatorAlreadyExists" := rfl

/-- `enclave_address_already_exists` -/
example :
    BadRoot (ext [(1, 1000), (2, 1000), (3, 100)])
      [era, r (.createCluster .pub), by_ 1 (.register 3 uri), by_ 2 (.register 3 uri), r (.assign 1 0 0)]
      (.assign 2 0 0) "EnclaveAddressAlreadyExists" := rfl

/-! `mod unregister_enclave` -/

/-- `unregister_enclave` -/
example : Good std [by_ 1 (.register 3 uri)] 1 .unregister (.withdrawn 1 20)
    (fun w => w.tee.registrations.get 1)
    none := ⟨rfl, rfl⟩

/-- `unregister_enclave_assigned` -/
example : (see c std (assigned ++ [by_ 1 .unregister]) fun w => w.tee.unregs) = some [1] := rfl

/-- `unregister_enclave_unassigned` -/
example : Bad std [] 1 .unregister "RegistrationNotFound" := rfl

/-! `mod update_enclave` -/

/-- `update_enclave` -/
example : Good std assigned 1 (.update 2 uri2) (.movedForUpdate 1 2 uri2)
    (fun w => w.tee.updates.get 1)
    (some ⟨2, uri2⟩) := ⟨rfl, rfl⟩

/-- `operator_and_enclave_are_same` -/
example : Bad std [] 1 (.update 1 uri2) "OperatorAndEnclaveAreSame" := rfl

/-- `update_request_already_exists` -/
example : Bad std (assigned ++ [by_ 1 (.update 2 uri2)]) 1 (.update 2 uri2) "UpdateRequestAlreadyExists" := rfl

/-- `update_prohibited_for_unassigned_enclave` -/
example : Bad std [] 1 (.update 2 uri2) "UpdateProhibitedForUnassignedEnclave" := rfl

/-- `enclave_address_already_exists` -/
example : Bad (ext [(1, 1000), (8, 1000), (3, 100)]) (assigned ++ [by_ 8 (.register 4 uri), r (.assign 8 0 0)]) 1
    (.update 4 uri) "EnclaveAddressAlreadyExists" := rfl

/-! `mod cancel_update` -/

/-- `cancel_update` -/
example : Good std (assigned ++ [by_ 1 (.update 3 uri)]) 1 .cancelUpdate (.updateCancelled 1)
    (fun w => w.tee.updates.get 1)
    none := ⟨rfl, rfl⟩

/-- `update_request_not_found` -/
example : Bad std [] 1 .cancelUpdate "UpdateRequestNotFound" := rfl

/-! `mod assign_enclave` -/

/-- `assign_enclave` -/
example : GoodRoot std [era, by_ 1 (.register 3 uri), r (.createCluster .pub)] (.assign 1 0 0) (.assigned 1 0)
    (fun w => about 1 w)
    (none, some ⟨3, uri⟩, none, some 0, some ⟨1, 20, false, 0⟩) := ⟨rfl, rfl⟩

/-- `bad_origin` -/
example : NotRoot (.assign 1 0 0) := rfl

/-- `enclave_address_already_exists` -/
example :
    BadRoot (ext [(1, 1000), (2, 1000), (3, 100)])
      [era, by_ 1 (.register 3 uri), by_ 2 (.register 3 uri), r (.createCluster .pub), r (.assign 1 0 0)]
      (.assign 2 0 0) "EnclaveAddressAlreadyExists" := rfl

/-- `registration_not_found` -/
example : BadRoot std [] (.assign 1 0 0) "RegistrationNotFound" := rfl

/-- `cluster_not_found` -/
example : BadRoot std [by_ 1 (.register 3 uri)] (.assign 1 0 0) "ClusterNotFound" := rfl

/-- `cluster_is_full` -/
example :
    BadRoot (ext [(1, 1000), (2, 1000), (3, 1000)])
      [era, by_ 1 (.register 5 uri), by_ 2 (.register 6 uri), by_ 3 (.register 7 uri), r (.createCluster .pub),
        r (.assign 1 0 0), r (.assign 2 0 1)]
      (.assign 3 0 2) "ClusterIsFull" := rfl

/-! `mod remove_registration` -/

/-- `remove_registration` -/
example : GoodRoot std [by_ 1 (.register 3 uri)] (.removeRegistration 1) (.registrationRemoved 1)
    (fun w => w.tee.registrations.get 1)
    none := ⟨rfl, rfl⟩

/-- `bad_origin` -/
example : NotRoot (.removeRegistration 1) := rfl

/-! `mod reject_update` -/

/-- `reject_update` -/
example : GoodRoot std (assigned ++ [by_ 1 (.update 2 uri2)]) (.rejectUpdate 1) (.updateRemoved 1)
    (fun w => w.tee.updates.get 1)
    none := ⟨rfl, rfl⟩

/-- `bad_origin` -/
example : NotRoot (.rejectUpdate 1) := rfl

/-- `reject_update_with_invalid_operator` -/
example : BadRoot std (assigned ++ [by_ 1 (.update 2 uri2)]) (.rejectUpdate 2) "UpdateRequestNotFound" := rfl

/-! `mod approve_enclave_unregistration` -/

/-- `approve_enclave_unregistration` -/
example : see c (ext [(1, 1000), (3, 1000)]) assigned (fun w => (w.tee.accOp.get 3, w.tee.opCluster.get 1, members w)) =
    some (some 1, some 0, some [(1, 0)]) := rfl

/-- `approve_enclave_unregistration` -/
example : see c (ext [(1, 1000), (3, 1000)]) (assigned ++ [by_ 1 (.update 2 uri2), by_ 1 .unregister])
    (fun w => (w.tee.updates.get 1, w.tee.data.get 1)) = some (some ⟨2, uri2⟩, some ⟨3, uri⟩) := rfl

/-- `approve_enclave_unregistration` -/
example : GoodRoot (ext [(1, 1000), (3, 1000)]) (assigned ++ [by_ 1 (.update 2 uri2), by_ 1 .unregister]) (.forceRemove 1) (.enclaveRemoved 1)
    (fun w => (w.tee.data.get 1, w.tee.accOp.get 3, w.tee.opCluster.get 1, w.tee.updates.get 1, members w))
    (none, none, none, none, some []) := ⟨rfl, rfl⟩

/-! `mod force_remove_enclave` -/

/-- `force_remove_enclave` -/
example : see c std assigned (fun w => (w.tee.accOp.get 3, w.tee.opCluster.get 1, members w)) =
    some (some 1, some 0, some [(1, 0)]) := rfl

/-- `force_remove_enclave` -/
example : see c std (assigned ++ [by_ 1 (.update 2 uri2), by_ 1 .unregister])
    (fun w => (w.tee.updates.get 1, w.tee.data.get 1)) = some (some ⟨2, uri2⟩, some ⟨3, uri⟩) := rfl

/-- `force_remove_enclave` -/
example : GoodRoot std (assigned ++ [by_ 1 (.update 2 uri2), by_ 1 .unregister]) (.forceRemove 1) (.enclaveRemoved 1)
    (fun w => (w.tee.data.get 1, w.tee.accOp.get 3, w.tee.opCluster.get 1, w.tee.updates.get 1, members w))
    (none, none, none, none, some []) := ⟨rfl, rfl⟩

/-- `bad_origin` -/
example : NotRoot (.forceRemove 1) := rfl

/-- `enclave_not_found` -/
example : BadRoot std (assigned ++ [r (.forceRemove 1)]) (.forceRemove 1) "EnclaveNotFound" := rfl

/-- `cluster_id_not_found` -/
example :
    BadRoot std
      (assigned ++ [.poke fun w => { w with tee := { w.tee with opCluster := w.tee.opCluster.erase 1 } }])
      (.forceRemove 1) "ClusterIdNotFound" := rfl

/-! `mod force_update_enclave` -/

/-- `force_update_enclave` -/
example : GoodRoot std (assigned ++ [by_ 1 (.update 2 uri2)]) (.forceUpdate 1 (some 2) (some uri2)) (.forceUpdated 1 (some 2) (some uri2))
    (fun w => (w.tee.data.get 1, w.tee.updates.get 1))
    (some ⟨2, uri2⟩, none) := ⟨rfl, rfl⟩

/-- `bad_origin` -/
example : NotRoot (.forceUpdate 1 (some 2) (some uri)) := rfl

/-- `enclave_address_already_exists` -/
example :
    BadRoot (ext [(1, 1000), (2, 1000), (3, 100)])
      [era, r (.createCluster .pub), by_ 1 (.register 3 uri), by_ 2 (.register 8 uri), r (.assign 1 0 0), r (.assign 2 0 1)]
      (.forceUpdate 2 (some 3) (some uri)) "EnclaveAddressAlreadyExists" := rfl

/-- `operator_and_enclave_are_same` -/
example : BadRoot std assigned (.forceUpdate 1 (some 1) (some uri2)) "OperatorAndEnclaveAreSame" := rfl

/-- `enclave_not_found` -/
example : BadRoot std assigned (.forceUpdate 3 (some 2) (some uri2)) "EnclaveNotFound" := rfl

/-! `mod create_cluster` -/

/-- `create_cluster` -/
example : GoodRoot (ext []) [] (.createCluster .pub) (.clusterAdded 0 .pub)
    (fun w => w.tee.clusters.get 0)
    (some ⟨[], .pub⟩) := ⟨rfl, rfl⟩

/-- `bad_origin` -/
example : NotRoot (.createCluster .pub) := rfl

/-! `mod update_cluster` -/

/-- `update_cluster` -/
example : GoodRoot (ext [])
    [.poke fun w => { w with tee := { w.tee with clusters := w.tee.clusters.insert 0 ⟨[], .priv⟩ } }]
    (.updateCluster 0 .pub) (.clusterUpdated 0 .pub)
    (fun w => w.tee.clusters.get 0) (some ⟨[], .pub⟩) := ⟨rfl, rfl⟩

/-- `bad_origin` -/
example : NotRoot (.updateCluster 0 .pub) := rfl

/-- `cluster_not_found` -/
example : BadRoot (ext []) [] (.updateCluster 0 .pub) "ClusterNotFound" := rfl

/-! `mod remove_cluster` -/

/-- `remove_cluster` -/
example : GoodRoot (ext []) [r (.createCluster .pub)] (.removeCluster 0) (.clusterRemoved 0)
    (fun w => w.tee.clusters.get 0)
    none := ⟨rfl, rfl⟩

/-- `bad_origin` -/
example : NotRoot (.removeCluster 0) := rfl

/-- `cluster_not_found` -/
example : BadRoot (ext []) [] (.removeCluster 0) "ClusterNotFound" := rfl

/-- `cluster_is_not_empty` -/
example : BadRoot std assigned (.removeCluster 0) "ClusterIsNotEmpty" := rfl

/-! traits.rs -/

/-- `ensure_enclave`: the cluster and the operator of an enclave -/
example : see c (ext [(1, 1000), (2, 1000)])
    [era, r (.createCluster .pub), by_ 1 (.register 5 uri), by_ 2 (.register 6 uri), r (.assign 1 0 0), r (.assign 2 0 1)]
    (fun w => NftM.ensureEnclave w 6) = some (some (0, 2)) := rfl

end Conform.Tee

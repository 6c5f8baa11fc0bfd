import Verif.Proofs.Priv
/-
The invariants of the tee pallet.
-/
variable {c : Cfg} {w w' : World} {a : AccountId}

theorem swapRemoveBy_perm {α : Type} (p : α → Bool) (l : List α) :
    (swapRemoveBy p l).Perm (l.eraseP p) := by
  unfold swapRemoveBy
  cases hf : l.findIdx? p with
  | none =>
    have : ∀ x ∈ l, ¬ p x := by simpa [List.findIdx?_eq_none_iff] using hf
    rw [List.eraseP_of_forall_not this]
  | some i =>
    obtain ⟨hi, hp, hlt⟩ := List.findIdx?_eq_some_iff_getElem.1 hf
    have hl : l = l.take i ++ l[i] :: l.drop (i + 1) := by
      rw [List.getElem_cons_drop, List.take_append_drop]
    have hnot : ∀ x ∈ l.take i, ¬ p x := by
      intro x hx
      obtain ⟨j, hj, rfl⟩ := List.getElem_of_mem hx
      simp only [List.length_take] at hj
      have := hlt j (by omega)
      simpa using this
    have he : l.eraseP p = l.take i ++ l.drop (i + 1) := by
      conv_lhs => rw [hl]
      rw [List.eraseP_append_right _ hnot, List.eraseP_cons_of_pos hp]
    rw [he]
    cases hz : l.getLast? with
    | none => simp at hz; subst hz; simp at hi
    | some z =>
      simp only
      by_cases hi2 : i + 1 = l.length
      · simp only [hi2, if_true, List.drop_length, List.append_nil]
        rw [List.dropLast_eq_take, ← hi2]
        simp
      · simp only [hi2, if_false]
        have hd : l.drop (i + 1) ≠ [] := by simp; omega
        obtain ⟨m, y, hm⟩ : ∃ m y, l.drop (i + 1) = m ++ [y] :=
          ⟨_, _, (List.dropLast_concat_getLast hd).symm⟩
        have hl' : l = l.take i ++ l[i] :: (m ++ [y]) := by rw [← hm]; exact hl
        have hy : y = z := by
          rw [hl'] at hz
          rw [show List.take i l ++ l[i] :: (m ++ [y]) = (List.take i l ++ l[i] :: m) ++ [y] by simp,
            List.getLast?_append] at hz
          simpa using hz
        have hdl : l.dropLast = l.take i ++ l[i] :: m := by
          conv_lhs => rw [hl', show List.take i l ++ l[i] :: (m ++ [y]) = (List.take i l ++ l[i] :: m) ++ [y] by simp]
          rw [List.dropLast_concat]
        have hlen : (l.take i).length = i := by simp; omega
        rw [hdl, hm, List.set_append_right _ _ (by omega), hlen]
        simp only [Nat.sub_self, List.set_cons_zero, hy]
        refine List.Perm.append_left _ ?_
        exact (List.perm_append_singleton z m).symm

theorem eraseP_key {α β : Type} [DecidableEq β] (f : α → β) (k : β) {l : List α}
    (h : (l.map f).Nodup) : l.eraseP (fun x => decide (f x = k)) = l.filter (fun x => decide (f x ≠ k)) := by
  induction l with
  | nil => rfl
  | cons x t ih =>
    simp only [List.map_cons, List.nodup_cons] at h
    by_cases e : f x = k
    · rw [List.eraseP_cons_of_pos (by simpa using e)]
      rw [List.filter_cons_of_neg (by simp [e])]
      symm
      rw [List.filter_eq_self]
      intro y hy
      simp only [decide_eq_true_eq]
      intro e'
      exact h.1 (List.mem_map.2 ⟨y, hy, by rw [e', e]⟩)
    · rw [List.eraseP_cons_of_neg (by simpa using e), List.filter_cons_of_pos (by simp [e]), ih h.2]

theorem swapRemoveBy_key {α β : Type} [DecidableEq β] (f : α → β) (k : β) {l : List α}
    (h : (l.map f).Nodup) :
    (swapRemoveBy (fun x => decide (f x = k)) l).Perm (l.filter (fun x => decide (f x ≠ k))) := by
  rw [← eraseP_key f k h]; exact swapRemoveBy_perm _ _

theorem swapRemoveBy_mem {α β : Type} [DecidableEq β] (f : α → β) (k : β) {l : List α}
    (h : (l.map f).Nodup) (j : β) :
    j ∈ (swapRemoveBy (fun x => decide (f x = k)) l).map f ↔ j ∈ l.map f ∧ j ≠ k := by
  rw [((swapRemoveBy_key f k h).map f).mem_iff]
  simp only [List.mem_map, List.mem_filter, decide_eq_true_eq]
  constructor
  · rintro ⟨x, ⟨h1, h2⟩, rfl⟩; exact ⟨⟨x, h1, rfl⟩, h2⟩
  · rintro ⟨⟨x, h1, rfl⟩, h2⟩; exact ⟨x, ⟨h1, h2⟩, rfl⟩

theorem swapRemoveBy_nodup {α β : Type} [DecidableEq β] (f : α → β) (k : β) {l : List α}
    (h : (l.map f).Nodup) : ((swapRemoveBy (fun x => decide (f x = k)) l).map f).Nodup := by
  rw [((swapRemoveBy_key f k h).map f).nodup_iff]
  exact h.sublist (List.filter_sublist.map f)

theorem swapRemoveBy_length {α : Type} (p : α → Bool) (l : List α) :
    (swapRemoveBy p l).length ≤ l.length := by
  rw [(swapRemoveBy_perm p l).length_eq]; exact List.length_eraseP_le

namespace TeeM

/-- The registry of enclaves. -/
structure TInv (c : Cfg) (t : TeeSt) : Prop where
  era : ∀ op, t.assignedEra.get op = none ↔ t.data.get op = none
  clu : ∀ op, t.opCluster.get op = none ↔ t.data.get op = none
  mem : ∀ op k, t.opCluster.get op = some k →
    ∃ cl, t.clusters.get k = some cl ∧ op ∈ cl.enclaves.map Prod.fst
  back : ∀ k cl op, t.clusters.get k = some cl → op ∈ cl.enclaves.map Prod.fst →
    t.opCluster.get op = some k
  nodup : ∀ k cl, t.clusters.get k = some cl → (cl.enclaves.map Prod.fst).Nodup
  size : ∀ k cl, t.clusters.get k = some cl → cl.enclaves.length ≤ c.clusterSize
  fresh : ∀ k, t.nextCluster ≤ k → t.clusters.get k = none
  reg : ∀ op e, t.registrations.get op = some e → t.data.get op = none
  addr : ∀ op e, t.data.get op = some e → t.accOp.get e.addr = some op
  upd : ∀ op e, t.updates.get op = some e → t.data.get op ≠ none
  unr : t.unregs.Nodup
  unrData : ∀ op ∈ t.unregs, t.data.get op ≠ none
  regNe : ∀ op e, t.registrations.get op = some e → e.addr ≠ op ∧ e.uri ≠ []
  dataNe : ∀ op e, t.data.get op = some e → e.addr ≠ op ∧ e.uri ≠ []

theorem TInv.congr {t t' : TeeSt} (h : TInv c t) (h1 : t'.assignedEra = t.assignedEra)
    (h2 : t'.data = t.data) (h3 : t'.opCluster = t.opCluster) (h4 : t'.clusters = t.clusters)
    (h5 : t'.nextCluster = t.nextCluster) (h6 : t'.registrations = t.registrations)
    (h7 : t'.accOp = t.accOp) (h8 : t'.updates = t.updates) (h9 : t'.unregs = t.unregs) :
    TInv c t' := by
  constructor
  · rw [h1, h2]; exact h.era
  · rw [h3, h2]; exact h.clu
  · rw [h3, h4]; exact h.mem
  · rw [h3, h4]; exact h.back
  · rw [h4]; exact h.nodup
  · rw [h4]; exact h.size
  · rw [h4, h5]; exact h.fresh
  · rw [h6, h2]; exact h.reg
  · rw [h2, h7]; exact h.addr
  · rw [h8, h2]; exact h.upd
  · rw [h9]; exact h.unr
  · rw [h9, h2]; exact h.unrData
  · rw [h6]; exact h.regNe
  · rw [h2]; exact h.dataNe

/-- a change of pending registrations only -/
theorem TInv.setReg {t : TeeSt} (h : TInv c t) {f : FMap AccountId Enclave} {L : FMap AccountId Ledger}
    (hf : ∀ op e, f.get op = some e → t.data.get op = none ∧ e.addr ≠ op ∧ e.uri ≠ []) :
    TInv c { t with registrations := f, ledger := L } :=
  { h with
    reg := fun op e he => (hf op e he).1
    regNe := fun op e he => (hf op e he).2 }

theorem unassign_inv {op} (h : unassign w op = .ok w') (hi : TInv c w.tee) : TInv c w'.tee := by
  simp only [unassign] at h; inv_ok at h
  obtain ⟨e, k, cl, he, _, hk, hcl, rfl⟩ := h
  have hn := hi.nodup k cl hcl
  have hu : (w.tee.unregs.map id).Nodup := by simpa using hi.unr
  have um : ∀ j, j ∈ swapRemoveBy (fun x => decide (x = op)) w.tee.unregs ↔ j ∈ w.tee.unregs ∧ j ≠ op := by
    intro j; simpa using swapRemoveBy_mem id op hu j
  have ea := hi.addr op e he
  constructor <;> dsimp only
  · intro j; simp only [FMap.get_erase]; split <;> simp [hi.era]
  · intro j; simp only [FMap.get_erase]; split <;> simp [hi.clu]
  · intro j k' hj
    simp only [FMap.get_erase] at hj
    split at hj
    · simp at hj
    · rename_i hne
      obtain ⟨cl', h1, h2⟩ := hi.mem j k' hj
      simp only [FMap.get_insert]
      split
      · rename_i e'; subst e'
        rw [hcl] at h1; simp at h1; subst h1
        exact ⟨_, rfl, (swapRemoveBy_mem Prod.fst op hn j).2 ⟨h2, hne⟩⟩
      · exact ⟨cl', h1, h2⟩
  · intro k' cl' j h1 h2
    simp only [FMap.get_insert] at h1
    split at h1
    · simp at h1; subst h1; subst_vars
      obtain ⟨h3, h4⟩ := (swapRemoveBy_mem Prod.fst op hn j).1 h2
      simp only [FMap.get_erase, h4, if_false]
      exact hi.back _ cl j hcl h3
    · rename_i hne
      have h3 := hi.back k' cl' j h1 h2
      have : j ≠ op := by rintro rfl; rw [hk] at h3; simp at h3; exact hne h3.symm
      simp only [FMap.get_erase, this, if_false]; exact h3
  · intro k' cl' h1
    simp only [FMap.get_insert] at h1
    split at h1
    · simp at h1; subst h1; exact swapRemoveBy_nodup Prod.fst op hn
    · exact hi.nodup k' cl' h1
  · intro k' cl' h1
    simp only [FMap.get_insert] at h1
    split at h1
    · simp at h1; subst h1; exact Nat.le_trans (swapRemoveBy_length _ _) (hi.size k cl hcl)
    · exact hi.size k' cl' h1
  · intro k' hk'
    simp only [FMap.get_insert]
    split
    · subst_vars; rw [hi.fresh _ hk'] at hcl; simp at hcl
    · exact hi.fresh k' hk'
  · intro j f hf
    simp only [FMap.get_erase]; split
    · rfl
    · exact hi.reg j f hf
  · intro j f hf
    simp only [FMap.get_erase] at hf ⊢
    split at hf
    · simp at hf
    · rename_i hne
      have := hi.addr j f hf
      split
      · rename_i e'; rw [e', ea] at this; simp at this; exact absurd this.symm hne
      · exact this
  · intro j f hf
    simp only [FMap.get_erase] at hf ⊢
    split at hf
    · simp at hf
    · rename_i hne; simp only [hne, if_false]; exact hi.upd j f hf
  · simpa using swapRemoveBy_nodup id op hu
  · intro j hj
    obtain ⟨h1, h2⟩ := (um j).1 hj
    simp only [FMap.get_erase, h2, if_false]; exact hi.unrData j h1
  · exact hi.regNe
  · intro j f hf
    simp only [FMap.get_erase] at hf
    split at hf
    · simp at hf
    · exact hi.dataNe j f hf

theorem dropRegistration_inv {op} (h : dropRegistration w op = .ok w') (hi : TInv c w.tee) :
    TInv c w'.tee := by
  simp only [dropRegistration] at h; inv_ok at h
  obtain ⟨e, he, rfl⟩ := h
  refine hi.setReg (f := w.tee.registrations.erase op) ?_
  intro j f hf
  simp only [FMap.get_erase] at hf
  split at hf
  · simp at hf
  · exact ⟨hi.reg j f hf, hi.regNe j f hf⟩

theorem dropUpdate_inv {op} (h : dropUpdate w op = .ok w') (hi : TInv c w.tee) :
    TInv c w'.tee := by
  simp only [dropUpdate] at h; inv_ok at h
  obtain ⟨e, he, rfl⟩ := h
  refine { hi with upd := ?_ }
  intro j f hf
  simp only [FMap.get_erase] at hf
  split at hf
  · simp at hf
  · exact hi.upd j f hf

theorem call_tinv {x : Call} (h : call c w a x = .ok w') (hi : TInv c w.tee) : TInv c w'.tee := by
  cases x <;> simp only [call] at h
  case register ad uri =>
    simp only [register] at h; inv_ok at h
    obtain ⟨h1, h2, h3, h4, h5, h6, h7, h8, rfl⟩ := h
    refine hi.setReg (f := w.tee.registrations.insert a _) ?_
    intro j f hf
    simp only [FMap.get_insert] at hf
    split at hf
    · simp at hf; subst hf; subst_vars; exact ⟨h4, fun e => h2 e.symm, h1⟩
    · exact ⟨hi.reg j f hf, hi.regNe j f hf⟩
  case unregister =>
    simp only [unregister] at h
    split at h
    · rename_i e he
      simp only [unregisterAssigned] at h; inv_ok at h
      obtain ⟨s, h1, h2, h3, rfl⟩ := h
      refine { hi with unr := ?_, unrData := ?_ }
      · exact List.nodup_append.2 ⟨hi.unr, by simp, by
          intro x hx y hy; simp at hy; subst hy; rintro rfl; exact h1 hx⟩
      · intro j hj
        simp only [List.mem_append, List.mem_singleton] at hj
        rcases hj with hj | rfl
        · exact hi.unrData j hj
        · rw [he]; simp
    · exact dropRegistration_inv h hi
  case update ad uri =>
    simp only [update] at h; inv_ok at h
    obtain ⟨e, h1, h2, h3, h4, h5, rfl⟩ := h
    refine { hi with upd := ?_ }
    intro j f hf
    simp only [FMap.get_insert] at hf
    split at hf
    · subst_vars; rw [h3]; simp
    · exact hi.upd j f hf
  case cancelUpdate => exact dropUpdate_inv h hi
  case withdraw => simp only [withdraw] at h; frame_auto at h; exact hi.congr rfl rfl rfl rfl rfl rfl rfl rfl rfl
  case submitReport =>
    simp only [submitReport] at h; frame_auto at h; exact hi.congr rfl rfl rfl rfl rfl rfl rfl rfl rfl
  case claim => simp only [claim] at h; frame_auto at h; exact hi.congr rfl rfl rfl rfl rfl rfl rfl rfl rfl
  case bondExtra =>
    simp only [bondExtra] at h; frame_auto at h; exact hi.congr rfl rfl rfl rfl rfl rfl rfl rfl rfl
  case refundExcess =>
    simp only [refundExcess] at h; frame_auto at h; exact hi.congr rfl rfl rfl rfl rfl rfl rfl rfl rfl

/-- an assigned operator gets a new enclave address, which resolves to nobody else -/
theorem TInv.newAddr {t : TeeSt} (h : TInv c t) {op : AccountId} {e e' : Enclave}
    {f : FMap AccountId AccountId}
    {U : FMap AccountId Enclave} (hd : t.data.get op = some e)
    (hf : ∀ x, x ≠ e.addr → x ≠ e'.addr → f.get x = t.accOp.get x)
    (he : f.get e'.addr = some op) (hold : e'.addr = e.addr ∨ t.accOp.get e'.addr = none)
    (hne : e'.addr ≠ op ∧ e'.uri ≠ []) (hU : ∀ j u, U.get j = some u → t.updates.get j = some u) :
    TInv c { t with accOp := f, data := t.data.insert op e', updates := U } := by
  have dn : ∀ j, (t.data.insert op e').get j = none ↔ t.data.get j = none := by
    intro j; simp only [FMap.get_insert]; split
    · subst_vars; simp [hd]
    · rfl
  refine { h with era := ?_, clu := ?_, reg := ?_, addr := ?_, upd := ?_, unrData := ?_, dataNe := ?_ }
  · intro j; rw [dn]; exact h.era j
  · intro j; rw [dn]; exact h.clu j
  · intro j u hu; exact (dn j).2 (h.reg j u hu)
  · intro j u hu
    simp only [FMap.get_insert] at hu
    split at hu
    · simp at hu; subst hu; subst_vars; exact he
    · rename_i hj
      have h1 := h.addr j u hu
      show f.get u.addr = some j
      have h2 : u.addr ≠ e.addr := by
        intro e1; rw [e1, h.addr op e hd] at h1; simp at h1; exact hj h1.symm
      have h3 : u.addr ≠ e'.addr := by
        intro e1
        rcases hold with h4 | h4
        · exact h2 (e1.trans h4)
        · rw [e1, h4] at h1; simp at h1
      rw [hf _ h2 h3]; exact h1
  · intro j u hu hn
    exact h.upd j u (hU j u hu) ((dn j).1 hn)
  · intro j hj hn; exact h.unrData j hj ((dn j).1 hn)
  · intro j u hu
    simp only [FMap.get_insert] at hu
    split at hu
    · simp at hu; subst hu; subst_vars; exact hne
    · exact h.dataNe j u hu

theorem root_tinv {x : RootCall} (h : root c w x = .ok w') (hi : TInv c w.tee) : TInv c w'.tee := by
  cases x <;> simp only [root] at h
  case removeRegistration => exact dropRegistration_inv h hi
  case rejectUpdate => exact dropUpdate_inv h hi
  case approveUnregister =>
    simp only [approveUnregister] at h; inv_ok at h
    exact unassign_inv h.2 hi
  case forceRemove =>
    simp only [forceRemove] at h; inv_ok at h
    obtain ⟨w1, s, h1, h2, rfl⟩ := h
    exact (unassign_inv h1 hi).congr rfl rfl rfl rfl rfl rfl rfl rfl rfl
  case approveUpdate op =>
    simp only [approveUpdate] at h; inv_ok at h
    obtain ⟨u, e, w1, h1, h2, h3, h4, h5, rfl⟩ := h
    have hU : ∀ j v, (w.tee.updates.erase op).get j = some v → w.tee.updates.get j = some v := by
      intro j v; simp only [FMap.get_erase]; split <;> simp
    unfold approveAddr at h5
    split at h5
    · rename_i e1
      inv_ok at h5; subst h5
      exact hi.newAddr (e := e) (e' := { addr := u.addr, uri := u.uri }) (f := w.tee.accOp) h4
        (fun _ _ _ => rfl) (by show w.tee.accOp.get u.addr = _; rw [← e1]; exact hi.addr op e h4)
        (Or.inl e1.symm) ⟨fun e => h3 e.symm, h2⟩ hU
    · inv_ok at h5
      obtain ⟨h5, rfl⟩ := h5
      exact hi.newAddr (e := e) (e' := { addr := u.addr, uri := u.uri })
        (f := w.tee.accOp.insert u.addr op) h4
        (fun x _ hx => FMap.get_insert_ne _ _ hx) (FMap.get_insert_self _ _ _)
        (Or.inr h5) ⟨fun e => h3 e.symm, h2⟩ hU
  case forceUpdate op ad uri =>
    simp only [forceUpdate] at h; inv_ok at h
    obtain ⟨e, y, h1, h2, h3, h4, rfl⟩ := h
    have hU : ∀ j v, (w.tee.updates.erase op).get j = some v → w.tee.updates.get j = some v := by
      intro j v; simp only [FMap.get_erase]; split <;> simp
    have hne := hi.dataNe op e h2
    have huri : uri.getD e.uri ≠ [] := by
      cases uri with
      | none => exact hne.2
      | some u => simpa using h4 u (by simp)
    cases ad with
    | none =>
      simp only [forceAddr] at h3; inv_ok at h3; subst h3
      exact hi.newAddr (e := e) (e' := { e with uri := uri.getD e.uri }) (f := w.tee.accOp) h2
        (fun _ _ _ => rfl) (hi.addr op e h2) (Or.inl rfl) ⟨hne.1, huri⟩ hU
    | some ad =>
      simp only [forceAddr] at h3; inv_ok at h3
      obtain ⟨h5, h6, rfl⟩ := h3
      by_cases e1 : e.addr = ad
      · simp only [e1, if_true]
        exact hi.newAddr (e := e) (e' := { addr := ad, uri := uri.getD e.uri }) (f := w.tee.accOp) h2
          (fun _ _ _ => rfl) (by show w.tee.accOp.get ad = _; rw [← e1]; exact hi.addr op e h2)
          (Or.inl e1.symm) ⟨fun e => h5 e.symm, huri⟩ hU
      · simp only [e1, if_false]
        exact hi.newAddr (e := e) (e' := { addr := ad, uri := uri.getD e.uri })
          (f := (w.tee.accOp.erase e.addr).insert ad op) h2
          (fun x hx hx' => by
            have hx' : x ≠ ad := hx'
            rw [FMap.get_insert_ne _ _ hx', FMap.get_erase_ne _ hx]) (FMap.get_insert_self _ _ _)
          (Or.inr (h6 e1)) ⟨fun e => h5 e.symm, huri⟩ hU
  case assign op k slot =>
    simp only [assign] at h; inv_ok at h
    obtain ⟨r, cl, era, h1, h2, h3, h4, h5, h6, rfl⟩ := h
    have hop : w.tee.opCluster.get op = none := (hi.clu op).2 h5
    have hnm : ∀ k cl, w.tee.clusters.get k = some cl → op ∉ cl.enclaves.map Prod.fst := by
      intro k cl hk hm; rw [hi.back k cl op hk hm] at hop; simp at hop
    constructor <;> dsimp only
    · intro j; simp only [FMap.get_insert]; split <;> simp [hi.era]
    · intro j; simp only [FMap.get_insert]; split <;> simp [hi.clu]
    · intro j k' hj
      simp only [FMap.get_insert] at hj ⊢
      split at hj
      · simp at hj; subst_vars
        exact ⟨_, by simp; rfl, by simp⟩
      · obtain ⟨cl', g1, g2⟩ := hi.mem j k' hj
        split
        · subst_vars; rw [h2] at g1; simp at g1; subst g1
          exact ⟨_, rfl, by rw [List.map_append]; exact List.mem_append_left _ g2⟩
        · exact ⟨cl', g1, g2⟩
    · intro k' cl' j g1 g2
      simp only [FMap.get_insert] at g1 ⊢
      split at g1
      · simp at g1; subst g1; subst_vars
        simp only [List.map_append, List.mem_append, List.map_cons, List.map_nil, List.mem_singleton] at g2
        split
        · rfl
        · rename_i hj
          rcases g2 with g2 | g2
          · exact hi.back _ cl j h2 g2
          · exact absurd g2 hj
      · split
        · subst_vars; exact absurd g2 (hnm k' cl' g1)
        · exact hi.back k' cl' j g1 g2
    · intro k' cl' g1
      simp only [FMap.get_insert] at g1
      split at g1
      · simp at g1; subst g1
        simp only [List.map_append, List.map_cons, List.map_nil]
        exact List.nodup_append.2 ⟨hi.nodup k cl h2, by simp, by
          intro x hx y hy; simp at hy; subst hy; rintro rfl; exact hnm k cl h2 hx⟩
      · exact hi.nodup k' cl' g1
    · intro k' cl' g1
      simp only [FMap.get_insert] at g1
      split at g1
      · simp at g1; subst g1; simp; omega
      · exact hi.size k' cl' g1
    · intro k' hk'
      simp only [FMap.get_insert]
      split
      · subst_vars; rw [hi.fresh _ hk'] at h2; simp at h2
      · exact hi.fresh k' hk'
    · intro j f hf
      simp only [FMap.get_erase] at hf
      split at hf
      · simp at hf
      · rename_i hj; simp only [FMap.get_insert, hj, if_false]; exact hi.reg j f hf
    · intro j f hf
      simp only [FMap.get_insert] at hf ⊢
      split at hf
      · simp at hf; subst hf; subst_vars; simp
      · have g1 := hi.addr j f hf
        split
        · rename_i e'; rw [e', h4] at g1; simp at g1
        · exact g1
    · intro j f hf
      simp only [FMap.get_insert]; split
      · simp
      · exact hi.upd j f hf
    · exact hi.unr
    · intro j hj
      simp only [FMap.get_insert]; split
      · simp
      · exact hi.unrData j hj
    · intro j f hf
      simp only [FMap.get_erase] at hf
      split at hf
      · simp at hf
      · exact hi.regNe j f hf
    · intro j f hf
      simp only [FMap.get_insert] at hf
      split at hf
      · simp at hf; subst hf; subst_vars; exact hi.regNe _ _ h1
      · exact hi.dataNe j f hf
  case createCluster t =>
    simp only [createCluster] at h; inv_ok at h
    obtain ⟨_, h1, rfl⟩ := h
    have hf := hi.fresh _ (Nat.le_refl w.tee.nextCluster)
    refine { hi with mem := ?_, back := ?_, nodup := ?_, size := ?_, fresh := ?_ }
    · intro j k hj
      obtain ⟨cl, g1, g2⟩ := hi.mem j k hj
      have : k ≠ w.tee.nextCluster := by rintro rfl; rw [hf] at g1; simp at g1
      exact ⟨cl, by simp only [FMap.get_insert, this, if_false]; exact g1, g2⟩
    · intro k cl j g1 g2
      simp only [FMap.get_insert] at g1
      split at g1
      · simp at g1; subst g1; simp at g2
      · exact hi.back k cl j g1 g2
    · intro k cl g1
      simp only [FMap.get_insert] at g1
      split at g1
      · simp at g1; subst g1; simp
      · exact hi.nodup k cl g1
    · intro k cl g1
      simp only [FMap.get_insert] at g1
      split at g1
      · simp at g1; subst g1; simp
      · exact hi.size k cl g1
    · intro k hk
      have hk : w.tee.nextCluster + 1 ≤ k := hk
      have : k ≠ w.tee.nextCluster := by omega
      simp only [FMap.get_insert, this, if_false]; exact hi.fresh k (by omega)
  case updateCluster k t =>
    simp only [updateCluster] at h; inv_ok at h
    obtain ⟨cl, hcl, rfl⟩ := h
    refine { hi with mem := ?_, back := ?_, nodup := ?_, size := ?_, fresh := ?_ }
    · intro j k' hj
      obtain ⟨cl', g1, g2⟩ := hi.mem j k' hj
      simp only [FMap.get_insert]
      split
      · subst_vars; rw [hcl] at g1; simp at g1; subst g1; exact ⟨_, rfl, g2⟩
      · exact ⟨cl', g1, g2⟩
    · intro k' cl' j g1 g2
      simp only [FMap.get_insert] at g1
      split at g1
      · simp at g1; subst g1; subst_vars; exact hi.back _ cl j hcl g2
      · exact hi.back k' cl' j g1 g2
    · intro k' cl' g1
      simp only [FMap.get_insert] at g1
      split at g1
      · simp at g1; subst g1; exact hi.nodup k cl hcl
      · exact hi.nodup k' cl' g1
    · intro k' cl' g1
      simp only [FMap.get_insert] at g1
      split at g1
      · simp at g1; subst g1; exact hi.size k cl hcl
      · exact hi.size k' cl' g1
    · intro k' hk
      simp only [FMap.get_insert]
      split
      · subst_vars; rw [hi.fresh _ hk] at hcl; simp at hcl
      · exact hi.fresh k' hk
  case removeCluster k =>
    simp only [removeCluster] at h; inv_ok at h
    obtain ⟨cl, hcl, h1, rfl⟩ := h
    refine { hi with mem := ?_, back := ?_, nodup := ?_, size := ?_, fresh := ?_ }
    · intro j k' hj
      obtain ⟨cl', g1, g2⟩ := hi.mem j k' hj
      simp only [FMap.get_erase]
      split
      · subst_vars; rw [hcl] at g1; simp at g1; subst g1
        rw [List.length_eq_zero_iff.1 h1] at g2; simp at g2
      · exact ⟨cl', g1, g2⟩
    · intro k' cl' j g1 g2
      simp only [FMap.get_erase] at g1
      split at g1
      · simp at g1
      · exact hi.back k' cl' j g1 g2
    · intro k' cl' g1
      simp only [FMap.get_erase] at g1
      split at g1
      · simp at g1
      · exact hi.nodup k' cl' g1
    · intro k' cl' g1
      simp only [FMap.get_erase] at g1
      split at g1
      · simp at g1
      · exact hi.size k' cl' g1
    · intro k' hk
      simp only [FMap.get_erase]
      split
      · rfl
      · exact hi.fresh k' hk
  case setAssignedEra op e =>
    simp only [setAssignedEra] at h; inv_ok at h
    obtain ⟨e0, h1, rfl⟩ := h
    refine { hi with era := ?_ }
    intro j
    simp only [FMap.get_insert]; split
    · subst_vars; simp [← hi.era, h1]
    · exact hi.era j
  all_goals simp only [registerServer, unregisterServer, setServerType, setWeights, setStakingAmount,
    setPool] at h
  all_goals frame_auto at h
  all_goals exact hi.congr rfl rfl rfl rfl rfl rfl rfl rfl rfl

end TeeM

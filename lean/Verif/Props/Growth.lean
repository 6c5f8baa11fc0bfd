import Verif.Proofs.Growth
import Verif.Props.Demo
/-
C125: what is stored grows only with what calls bring.
-/
open Spec
variable {c : Cfg} {w : World}

/-- C125: an operation adds to the stored state at most what the call brings: its byte strings, its lists and up to four
entries.  Everything that is not a call, in particular every hook, adds nothing. -/
theorem C125_step (hc : c.Ok) (hr : Reach c w) (o : Op) : stored (step c w o) ≤ stored w + opAdds o :=
  step_grow hc hr o

/-- C125: after any history the stored state is at most the one of the beginning and what the calls of the history have
brought. -/
theorem C125 (hc : c.Ok) (hr : Reach c w) (l : List Op) (hl : ∀ o ∈ l, o.Ok c) :
    stored (run c w l) ≤ stored w + (l.map opAdds).sum :=
  run_grow hc hr l hl

/-- operations that are no calls -/
def Spec.NoCall : Op → Prop
  | .call .. => False
  | _ => True

/-- C125: without calls, blocks can come and go for as long as one likes and the stored state does not grow. -/
theorem C125_idle (hc : c.Ok) (hr : Reach c w) (l : List Op) (hl : ∀ o ∈ l, o.Ok c) (hn : ∀ o ∈ l, NoCall o) :
    stored (run c w l) ≤ stored w := by
  have h1 := run_grow hc hr l hl
  have h2 : (l.map opAdds).sum = 0 := by
    clear h1 hl
    induction l with
    | nil => rfl
    | cons o t ih =>
      have h3 := hn o (by simp)
      have h4 := ih fun x hx => hn x (by simp [hx])
      simp only [List.map_cons, List.sum_cons, h4]
      cases o <;> first | rfl | exact h3.elim
  omega

/-- a call that is answered by an error adds nothing -/
theorem C125_refused {o : Origin} {x : Call} {e : Err} (h : dispatch c x o w = .error e) :
    stored (step c w (.call o x)) = stored w := by
  simp only [step, h, orSame]

/-- a state with an NFT in a collection, a running auction with a bid, a rent contract, a transmission -/
abbrev furnished : List Op :=
  [Demo.by_ 1 (.nft (.createColl [9, 9, 9] none)), Demo.by_ 1 (.nft (.createNft [1, 2] ⟨5, by omega⟩ (some 0) false)),
    Demo.mint1, Demo.mint1, Demo.by_ 1 (.mkt (.create .pub)), Demo.by_ 1 (.auc (.create 0 0 1 8 100 none)),
    Op.tick, Demo.by_ 2 (.auc (.addBid 0 200)),
    Demo.by_ 1 (.rent (.create 1 (.fixed 20) (.auto (some [2, 3])) true (.tokens 50) .none .none)),
    Demo.by_ 1 (.tr (.set 2 3 (.onConsent [4, 5] 1) .anytime))]

-- every call of this history brings exactly what the table says but for the protocol, which needs no place in the schedule
example : stored (Demo.at_ furnished) + 1 = stored Demo.w0 + (furnished.map opAdds).sum := by decide +kernel

example : stored (run Demo.cfg Demo.w0 furnished) ≤ stored Demo.w0 + (furnished.map opAdds).sum :=
  C125 (c := Demo.cfg) Demo.cfg_ok (Reach.init Demo.genesis) _ (by decide)

-- without further calls the auction and the contract leave, and the bid remains to be claimed or is paid out
example : stored (run Demo.cfg (Demo.at_ furnished) (List.replicate 40 [Op.tick, Op.hookAuc, Op.hookRent, Op.hookTr, Op.hookTee]).flatten) ≤
    stored (Demo.at_ furnished) :=
  C125_idle (c := Demo.cfg) Demo.cfg_ok (Demo.reach _ (by decide)) _
    (by
      intro o ho
      simp only [List.mem_flatten, List.mem_replicate] at ho
      obtain ⟨l, ⟨_, rfl⟩, ho⟩ := ho
      simp only [List.mem_cons, List.not_mem_nil, or_false] at ho
      rcases ho with rfl | rfl | rfl | rfl | rfl <;> trivial)
    (by
      intro o ho
      simp only [List.mem_flatten, List.mem_replicate] at ho
      obtain ⟨l, ⟨_, rfl⟩, ho⟩ := ho
      simp only [List.mem_cons, List.not_mem_nil, or_false] at ho
      rcases ho with rfl | rfl | rfl | rfl | rfl <;> trivial)

-- it does shrink
example : stored (run Demo.cfg (Demo.at_ furnished) (List.replicate 10 [Op.tick, Op.hookAuc]).flatten) + 3 =
    stored (Demo.at_ furnished) := by decide +kernel

-- a consent brings an entry and an element
example : stored (step Demo.cfg (Demo.at_ (furnished ++ [Demo.by_ 1 (.nft (.createNft [1] ⟨5, by omega⟩ none false)),
      Demo.by_ 1 (.tr (.set 3 2 (.onConsent [4, 5] 2) .anytime))])) (Demo.by_ 4 (.tr (.addConsent 3)))) =
    stored (Demo.at_ (furnished ++ [Demo.by_ 1 (.nft (.createNft [1] ⟨5, by omega⟩ none false)),
      Demo.by_ 1 (.tr (.set 3 2 (.onConsent [4, 5] 2) .anytime))])) + 2 := by decide +kernel

/-- C125: calls are not balanced by what removes their entries.  An auction that has ended leaves its commission behind, so
the stored state of a chain with a fixed number of NFTs, none of them in use, may still be larger than before the first
call. -/
theorem C125_leftover : ∃ w w', Reach Demo.cfg w ∧
    w' = run Demo.cfg w [Demo.by_ 1 (.auc (.create 0 0 1 8 100 none)), Demo.by_ 1 (.auc (.cancel 0))] ∧
    w'.nfts.l = w.nfts.l ∧ stored w' = stored w + 1 :=
  ⟨_, _, Demo.reach [Demo.mint1, Demo.by_ 1 (.mkt (.create .pub))] (by decide), rfl, by decide, by decide⟩

import Verif.Proofs.Eras
/-
The end of a contract looks neither at the schedules nor at the offers.
-/
namespace Blind

/-- the chain with other schedules of contracts and another table of offers -/
def world (q f s : Queue) (o : FMap NFTId (List AccountId)) (w : World) : World :=
  { w with rent := { w.rent with availQ := q, fixedQ := f, subQ := s, offers := o } }

/-- `a` looks at neither -/
structure To (q f s : Queue) (o : FMap NFTId (List AccountId)) (a : Act) : Prop where
  eq : ∀ w, a (Blind.world q f s o w) = (Blind.world q f s o (a w).1, (a w).2)

variable {q f s : Queue} {o : FMap NFTId (List AccountId)}

theorem To.skip : To q f s o Act.skip := ⟨fun _ => rfl⟩

theorem To.seq {a a' : Act} (h : To q f s o a) (h' : To q f s o a') : To q f s o (a.seq a') := by
  refine ⟨fun w => ?_⟩
  simp only [Act.seq, h.eq w]
  rcases a w with ⟨w', _ | _⟩
  · rfl
  · exact h'.eq w'

variable (c : Cfg)

theorem pay (x y : AccountId) (v : Balance) (l : Live) : To q f s o (RentM.payAct c x y v l) := by
  refine ⟨fun w => ?_⟩
  have h : (Blind.world q f s o w).bal = w.bal := rfl
  simp only [RentM.payAct, h]
  cases w.bal.transfer c.ed x y v l <;> rfl

theorem chownOpt (n : Option NFTId) (a : AccountId) : To q f s o (RentM.chownOpt n a) := by
  cases n with
  | none => exact .skip
  | some n =>
    refine ⟨fun w => ?_⟩
    have h : (Blind.world q f s o w).nfts = w.nfts := rfl
    simp only [RentM.chownOpt, RentM.chownAct, h]
    cases w.nfts.get n <;> rfl

theorem handleFinished (n : NFTId) : To q f s o (RentM.handleFinished c n) := by
  refine ⟨fun w => ?_⟩
  have hn : (Blind.world q f s o w).nfts = w.nfts := rfl
  have hr : (Blind.world q f s o w).rent.contracts = w.rent.contracts := rfl
  simp only [RentM.handleFinished, hn, hr]
  cases w.rent.contracts.get n with
  | none => rfl
  | some t =>
    cases w.nfts.get n with
    | none => rfl
    | some d =>
      refine (To.seq (pay c ..) (.seq ?_ (.seq (chownOpt ..) (.seq ?_ ⟨fun w => rfl⟩)))).eq w
      · cases t.rentee
        · exact .skip
        · exact pay c ..
      · cases t.rentee
        · exact .skip
        · exact chownOpt ..

/-- it also leaves them as they are -/
theorem handleFinished_keeps (n : NFTId) (w : World) :
    (RentM.handleFinished c n w).1 =
      Blind.world w.rent.availQ w.rent.fixedQ w.rent.subQ w.rent.offers (RentM.handleFinished c n w).1 :=
  congrArg Prod.fst ((handleFinished c n).eq w)

end Blind

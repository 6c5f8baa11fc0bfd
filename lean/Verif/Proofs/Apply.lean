import Verif.Props.ApplySpec
import Verif.Proofs.SymNft
/-
What the offers on an NFT influence: nothing but offers, their acceptance and their retraction.
-/
open Spec Sym

namespace Board

/-- the chain with another table of offers and another event log -/
def world (o : FMap NFTId (List AccountId)) (e : List Ev) (w : World) : World :=
  { w with rent := { w.rent with offers := o }, evs := e }

variable (o : FMap NFTId (List AccountId)) (e : List Ev) (c : Cfg) (w : World)

theorem chown (n : Option NFTId) (a : AccountId) :
    (RentM.chownOpt n a).ext (world o e w) = Except.map (world o e) ((RentM.chownOpt n a).ext w) := by
  cases n with
  | none => rfl
  | some n =>
    have h : (world o e w).nfts = w.nfts := rfl
    simp only [RentM.chownOpt, Act.ext, RentM.chownAct, h]
    cases w.nfts.get n <;> rfl

theorem check (a : AccountId) (x : Option NFTId) : RentM.checkNft (world o e w) a x = RentM.checkNft w a x := rfl

theorem take (a : AccountId) (t : Contract) :
    RentM.takeFees c (world o e w) a t = Except.map (world o e) (RentM.takeFees c w a t) := by
  have h1 : (world o e w).bal = w.bal := rfl
  have h5 : ∀ b, (world o e w).putBal b = world o e (w.putBal b) := fun _ => rfl
  simp only [RentM.takeFees, h1, h5, map_bind', check, chown, bind_map']

theorem start (n : NFTId) (t : Contract) (a : AccountId) :
    RentM.startContract c (world o e w) n t a =
      Except.map (world (o.erase n) e) (RentM.startContract c w n t a) := by
  simp only [RentM.startContract, take, bind_map', map_bind', map_pure']
  congr 1
  funext v
  have e1 : (world o e v).rent = { v.rent with offers := o } := rfl
  have e2 : (world o e v).now = v.now := rfl
  rw [e1, e2]
  cases t.duration with
  | fixed d =>
    simp only [RentM.insertKind]
    cases Queue.insert c.rentLimit v.rent.fixedQ n (v.now + RentM.period (.fixed d)) <;> rfl
  | sub s =>
    simp only [RentM.insertKind]
    cases Queue.insert c.rentLimit v.rent.subQ n (v.now + RentM.period (.sub s)) <;> rfl

end Board

theorem FMap.erase_insert' {K V : Type} [DecidableEq K] (m : FMap K V) (k : K) (v : V) :
    (m.insert k v).erase k = m.erase k := by
  have hd : ∀ l : List (K × V), FMap.del k (FMap.del k l) = FMap.del k l := by
    intro l
    induction l with
    | nil => rfl
    | cons p t ih =>
      obtain ⟨k', v'⟩ := p
      by_cases h : k' = k <;> simp [FMap.del, h, ih]
  have he : ∀ a b : FMap K V, a.l = b.l → a = b := by
    rintro ⟨a, _⟩ ⟨b, _⟩ h
    cases h
    rfl
  apply he
  simp [FMap.erase, FMap.insert, FMap.del, hd]

variable {c : Cfg} {w w' : World} {a : AccountId}

/-- an accepted offer is appended and announced, and changes nothing else -/
theorem RentM.makeOffer_out {n : NFTId} {cr : Block} (h : RentM.makeOffer c w a n cr = .ok w') :
    w' = Board.world (w.rent.offers.insert n (applicants w n ++ [a])) (.offerMade n a :: w.evs) w := by
  unfold RentM.makeOffer at h
  simp only [Exec.bind_ok, Exec.pure_ok] at h
  obtain ⟨_, _, _, _, _, _, _, _, _, _, _, _, _, _, _, _, _, _, _, _, _, _, _, _, _, _, rfl⟩ := h
  rfl

/-- whether an offer is accepted depends on the open offers only by the offerer's own and by the room left -/
theorem RentM.makeOffer_board {n : NFTId} {cr : Block} (h : RentM.makeOffer c w a n cr = .ok w')
    (o : FMap NFTId (List AccountId)) (e : List Ev) (h1 : a ∉ (o.get n).getD [])
    (h2 : ((o.get n).getD []).length < c.rentAccounts) :
    RentM.makeOffer c (Board.world o e w) a n cr =
      .ok (Board.world (o.insert n ((o.get n).getD [] ++ [a])) (.offerMade n a :: e) w) := by
  unfold RentM.makeOffer at h
  simp only [Exec.bind_ok, Exec.pure_ok] at h
  obtain ⟨_, _, k, g2, _, g3, _, g4, _, g5, _, g6, _, g7, _, g8, _, g9, _, g10, _, g11, _, g12, _, g13, _⟩ := h
  unfold RentM.makeOffer
  simp only [Exec.bind_ok, Exec.pure_ok]
  exact ⟨(), Exec.require_ok.2 h1, k, g2, _, g3, _, g4, _, g5, _, g6, _, g7, _, g8, _, g9, _, g10, _, g11, _, g12, (),
    Exec.require_ok.2 h2, rfl⟩

import Verif.Proofs.Scope
import Verif.Props.Demo
/-
C102 and C103: what a signed call depends on and changes, and when the order of calls does not matter.
-/
open Spec
variable {c : Cfg}

/-! ## C102 -/

/-- a listing and an auction of two NFTs on two marketplaces -/
abbrev twoShops : List Op := [Demo.mint1, Demo.by_ 3 (.mkt (.create .pub)), Demo.by_ 4 (.mkt (.create .pub)),
  Demo.by_ 2 (.nft (.createNft [9] ⟨100000, by omega⟩ none false)), Demo.by_ 1 (.mkt (.list 0 0 1000)),
  Demo.by_ 2 (.mkt (.list 1 1 500))]

/-- C102: **A call depends on nothing but what it is about.**  In any two states with the same clock and settings
that agree on what a signed call is about, the call is refused with the same error, or accepted in both, and then
the results again agree on what it is about. -/
theorem C102 {w1 w2 : World} (a : AccountId) (x : Call) (hs : Settings w1 w2)
    (h : ∀ i ∈ uses c w1 a x, same w1 w2 i) :
    Alike (fun v1 v2 => Settings v1 v2 ∧ ∀ i ∈ uses c w1 a x, same v1 v2 i)
      (dispatch c x (.signed a) w1) (dispatch c x (.signed a) w2) := by
  have h0 := signed_rel (c := c) (S := uses c w1 a x) ⟨hs, h⟩ a x fun _ h => h
  rw [dispatch_signed, dispatch_signed]
  revert h0
  cases signedCall c w1 a x <;> cases signedCall c w2 a x <;> simp only [Out, Alike, imp_self]
  exact fun h => ⟨h.set, h.on⟩

/-- Two different histories agree on all that buying NFT 0 is about; the purchase is accepted. -/
example : Settings (Demo.at_ twoShops) (Demo.at_ (twoShops ++ [Demo.by_ 2 (.mkt (.unlist 1))])) ∧
    (∀ i ∈ uses Demo.cfg (Demo.at_ twoShops) 5 (.mkt (.buy 0 1000)),
      same (Demo.at_ twoShops) (Demo.at_ (twoShops ++ [Demo.by_ 2 (.mkt (.unlist 1))])) i) ∧
    ¬ same (Demo.at_ twoShops) (Demo.at_ (twoShops ++ [Demo.by_ 2 (.mkt (.unlist 1))])) (.nft 1) ∧
    (dispatch Demo.cfg (.mkt (.buy 0 1000)) (.signed 5) (Demo.at_ twoShops)).toOption.isSome := by
  refine ⟨⟨rfl, rfl, rfl, rfl, rfl, rfl, rfl, rfl, rfl, rfl, rfl⟩, ?_, ?_, by decide⟩
  · have e : uses Demo.cfg (Demo.at_ twoShops) 5 (.mkt (.buy 0 1000)) =
        [.nft 0, .account 5, .account 1, .market 0, .account 3, .account 1] := by decide
    rw [e]
    intro i hi
    simp only [List.mem_cons, List.not_mem_nil, or_false] at hi
    rcases hi with rfl | rfl | rfl | rfl | rfl | rfl
    · exact ⟨rfl, rfl, rfl, rfl, rfl, rfl, rfl, rfl, rfl, rfl, rfl, rfl, rfl⟩
    · exact ⟨rfl, rfl, rfl⟩
    · exact ⟨rfl, rfl, rfl⟩
    · exact rfl
    · exact ⟨rfl, rfl, rfl⟩
    · exact ⟨rfl, rfl, rfl⟩
  · intro h
    have := h.2.2.2.2.2.2.1
    revert this
    decide

/-- C102: **A call changes nothing but what it is about**, and of that only what it does not merely look at; the
clock and the settings stay, and besides there are only the chain's total issuance and the fees collected. -/
theorem C102_frame {w w' : World} {a : AccountId} {x : Call} (h : dispatch c x (.signed a) w = .ok w') :
    Settings w w' ∧ ∀ i, i ∉ touches c w a x → same w w' i := by
  rw [dispatch_signed] at h
  have h0 := signed_off (T := touches c w a x) h fun _ h => h
  exact ⟨h0.set, h0.on⟩

example : ∃ w', dispatch Demo.cfg (.mkt (.buy 0 1000)) (.signed 5) (Demo.at_ twoShops) = .ok w' ∧
    Item.nft 1 ∉ touches Demo.cfg (Demo.at_ twoShops) 5 (.mkt (.buy 0 1000)) ∧
    Item.market 0 ∉ touches Demo.cfg (Demo.at_ twoShops) 5 (.mkt (.buy 0 1000)) :=
  ⟨_, rfl, by decide, by decide⟩

/-! ## C103 -/

namespace Spec

/-- do the calls `l`, made one after the other, leave the items of `S` alone? -/
def LeaveAlone (c : Cfg) (S : List Item) : World → List (AccountId × Call) → Prop
  | _, [] => True
  | w, (b, y) :: t => (∀ i ∈ touches c w b y, i ∉ S) ∧ LeaveAlone c S (step c w (.call (.signed b) y)) t

/-- Two calls do not meet: neither may change what the other is about. -/
def Apart (c : Cfg) (w : World) (a : AccountId) (x : Call) (b : AccountId) (y : Call) : Prop :=
  (∀ i ∈ touches c w a x, i ∉ uses c w b y) ∧ ∀ i ∈ touches c w b y, i ∉ uses c w a x

instance (c : Cfg) (w : World) (a : AccountId) (x : Call) (b : AccountId) (y : Call) : Decidable (Apart c w a x b y) := by
  unfold Apart; infer_instance

end Spec

/-- a call that is refused changes nothing -/
theorem step_off {w : World} {a : AccountId} {x : Call} :
    Settings w (step c w (.call (.signed a) x)) ∧
      ∀ i, i ∉ touches c w a x → same w (step c w (.call (.signed a) x)) i := by
  simp only [step]
  cases h : dispatch c x (.signed a) w with
  | error e => exact ⟨.rfl' w, fun i _ => .rfl' w i⟩
  | ok w' => exact C102_frame h

theorem alone_same {S : List Item} {w : World} {l : List (AccountId × Call)} (h : LeaveAlone c S w l) :
    Settings w (run c w (l.map fun p => .call (.signed p.1) p.2)) ∧
      ∀ i ∈ S, same w (run c w (l.map fun p => .call (.signed p.1) p.2)) i := by
  induction l generalizing w with
  | nil => exact ⟨.rfl' w, fun i _ => .rfl' w i⟩
  | cons p t ih =>
    obtain ⟨b, y⟩ := p
    obtain ⟨h1, h2⟩ := h
    have h3 := ih h2
    have h4 := step_off (c := c) (w := w) (a := b) (x := y)
    exact ⟨h4.1.trans h3.1, fun i hi => (h4.2 i fun hx => h1 i hx hi).trans (h3.2 i hi)⟩

/-- C103: **Calls about other things in between make no difference.**  Whatever other signed calls get in before a
call, accepted or refused, as long as they leave alone what the call is about, the call has the same outcome. -/
theorem C103 {w : World} {a : AccountId} {x : Call} {l : List (AccountId × Call)}
    (h : LeaveAlone c (uses c w a x) w l) :
    Alike (fun v1 v2 => Settings v1 v2 ∧ ∀ i ∈ uses c w a x, same v1 v2 i) (dispatch c x (.signed a) w)
      (dispatch c x (.signed a) (run c w (l.map fun p => .call (.signed p.1) p.2))) :=
  C102 a x (alone_same h).1 (alone_same h).2

example : LeaveAlone Demo.cfg (uses Demo.cfg (Demo.at_ twoShops) 5 (.mkt (.buy 0 1000))) (Demo.at_ twoShops)
    [(6, .mkt (.buy 1 500)), (6, .nft (.transferNft 1 7)), (8, .bal 9 100 .allowDeath)] := by
  refine ⟨by decide, by decide, by decide, trivial⟩

theorem step_alike {w v : World} {a : AccountId} {x : Call} (hs : Settings w v)
    (h : ∀ i ∈ uses c w a x, same w v i) :
    ∀ i ∈ uses c w a x, same (step c w (.call (.signed a) x)) (step c v (.call (.signed a) x)) i := by
  have h0 := C102 (c := c) a x hs h
  simp only [step]
  revert h0
  cases dispatch c x (.signed a) w <;> cases dispatch c x (.signed a) v <;> simp only [Alike, orSame]
  · exact fun _ => h
  · exact fun h => h.elim
  · exact fun h => h.elim
  · exact fun h => h.2

theorem touches_uses {w : World} {a : AccountId} {x : Call} {i : Item} (h : i ∈ touches c w a x) (hi : i ≠ .supply) :
    i ∈ uses c w a x := by
  simp only [touches, List.mem_cons, List.mem_filter] at h
  exact (h.resolve_left hi).1

theorem Spec.Apart.symm {w : World} {a b : AccountId} {x y : Call} (h : Apart c w a x b y) : Apart c w b y a x :=
  ⟨h.2, h.1⟩

/-- C103: **The order of calls that do not meet does not matter.**  If neither of two signed calls may change what
the other is about, each has the same outcome whether it comes first or second, and both orders end in states that
agree on every piece (up to the totals of issuance and collected fees, which no other call than a bridge vote looks
at). -/
theorem C103_order {w : World} {a b : AccountId} {x y : Call} (h : Apart c w a x b y) :
    Alike (fun v1 v2 => Settings v1 v2 ∧ ∀ i ∈ uses c w a x, same v1 v2 i) (dispatch c x (.signed a) w)
      (dispatch c x (.signed a) (step c w (.call (.signed b) y))) ∧
    Alike (fun v1 v2 => Settings v1 v2 ∧ ∀ i ∈ uses c w b y, same v1 v2 i) (dispatch c y (.signed b) w)
      (dispatch c y (.signed b) (step c w (.call (.signed a) x))) ∧
    ∀ i, i ≠ .supply →
      same (run c w [.call (.signed a) x, .call (.signed b) y]) (run c w [.call (.signed b) y, .call (.signed a) x]) i := by
  refine ⟨C103 (l := [(b, y)]) ⟨h.2, trivial⟩, C103 (l := [(a, x)]) ⟨h.1, trivial⟩, fun i hi => ?_⟩
  -- one order, seen from the first call
  have key : ∀ {a b : AccountId} {x y : Call}, Apart c w a x b y → i ∈ uses c w a x →
      same (step c (step c w (.call (.signed a) x)) (.call (.signed b) y))
        (step c (step c w (.call (.signed b) y)) (.call (.signed a) x)) i := by
    intro a b x y h hu
    have fx := step_off (c := c) (w := w) (a := a) (x := x)
    have fy := step_off (c := c) (w := w) (a := b) (x := y)
    -- the first call leaves alone what the second is about
    have e : uses c (step c w (.call (.signed a) x)) b y = uses c w b y :=
      uses_congr fun j hj => fx.2 j fun hx => h.1 j hx hj
    have f2 := (step_off (c := c) (w := step c w (.call (.signed a) x)) (a := b) (x := y)).2 i (by
      intro hx
      have : touches c (step c w (.call (.signed a) x)) b y = touches c w b y := by simp only [touches, e]
      rw [this] at hx
      exact h.2 i hx hu)
    have l1 := step_alike (c := c) (a := a) (x := x) fy.1 (fun j hj => fy.2 j fun hx => h.2 j hx hj) i hu
    exact f2.symm.trans l1
  by_cases hx : i ∈ uses c w a x
  · exact key h hx
  by_cases hy : i ∈ uses c w b y
  · exact (key h.symm hy).symm
  -- neither is about it
  have off : ∀ {a b : AccountId} {x y : Call}, Apart c w a x b y → i ∉ uses c w a x → i ∉ uses c w b y →
      same w (step c (step c w (.call (.signed a) x)) (.call (.signed b) y)) i := by
    intro a b x y h hx hy
    have fx := step_off (c := c) (w := w) (a := a) (x := x)
    have e : uses c (step c w (.call (.signed a) x)) b y = uses c w b y :=
      uses_congr fun j hj => fx.2 j fun hx => h.1 j hx hj
    refine (fx.2 i fun ht => hx (touches_uses ht hi)).trans ?_
    exact (step_off (c := c)).2 i fun ht => hy (by rw [← e]; exact touches_uses ht hi)
  exact (off h hx hy).symm.trans (off h.symm hy hx)

/-- Two sales of different NFTs by different people on different marketplaces do not meet; both are accepted. -/
example : Apart Demo.cfg (Demo.at_ twoShops) 5 (.mkt (.buy 0 1000)) 6 (.mkt (.buy 1 500)) ∧
    (dispatch Demo.cfg (.mkt (.buy 0 1000)) (.signed 5) (Demo.at_ twoShops)).toOption.isSome ∧
    (dispatch Demo.cfg (.mkt (.buy 1 500)) (.signed 6) (Demo.at_ twoShops)).toOption.isSome := by
  refine ⟨by decide, by decide, by decide⟩

/-- Calls that meet: two buyers of the same NFT, and a buyer and the marketplace's new owner. -/
example : ¬ Apart Demo.cfg (Demo.at_ twoShops) 5 (.mkt (.buy 0 1000)) 6 (.mkt (.buy 0 1000)) ∧
    ¬ Apart Demo.cfg (Demo.at_ twoShops) 5 (.mkt (.buy 0 1000)) 3 (.mkt (.setOwner 0 9)) := by
  refine ⟨by decide, by decide⟩

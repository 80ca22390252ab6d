import Verif.Vector.EraseThrow
import Verif.Vector.Props2

/-!
C149: `fill` when the function that fills throws.
-/

namespace Verif.Vector

open V

variable {α β : Type} {cfg : Cfg α} {w : World α} {i n : Nat} {xs l : List α} {safe : Bool}

/-! ### Model -/

/-- `filler(nullptr)`: a number, or it throws (`none`). -/
def askFiller : Option Nat → V α Nat
  | some n => pure n
  | none => fail (.throw "filler")

/-- `fill(filler)`, container/stdb_vector.hpp:890-901, with a function that may throw, when it is asked (`promise = none`) or when it
fills (`fails`): then it has made the elements `written` and destroys them again before it throws. -/
def fillThrowing (cfg : Cfg α) (safe : Bool) (promise : Option Nat) (written : List α) (fails : Bool) : V α Unit := do
  let v ← this
  doIf safe (do
    let n ← askFiller promise
    doIf (decide (add64 n v.fin > v.edge)) (do
      let c ← computeNewCapacity cfg (add64 n v.fin)
      reallocWithOldData cfg c))
  let v ← this
  constructList v.finPtr written
  if fails then do
    destroyRange cfg v.finPtr written.length
    fail (.throw "filler")
  else setThis { v with fin := v.fin + written.length }

/-- A function that does not throw makes it `fill`. -/
theorem fillThrowing_never : fillThrowing cfg safe (some n) l false = fill cfg safe n l := by
  cases safe <;> rfl

/-! ### Lemmas -/

theorem bind_done {γ : Type} {x : V α β} {f : β → V α γ} {s s' : S α} {c : γ} (h : (x >>= f) s = (.ok c, s')) :
    ∃ b s1, x s = (.ok b, s1) ∧ f b s1 = (.ok c, s') := by
  rcases hx : x s with ⟨r, s1⟩
  cases r with
  | ok b => rw [bind_ok hx] at h; exact ⟨b, s1, rfl, h⟩
  | error e => rw [bind_err hx] at h; cases h

theorem constructAt_this {p : Ptr} {x : α} {s s' : S α} {u : Unit} (h : constructAt p x s = (.ok u, s')) : s'.this = s.this := by
  obtain ⟨_, s1, h1, h2⟩ := bind_done h
  cases h2
  unfold writeCell at h1
  repeat' split at h1
  all_goals cases h1
  rfl

theorem constructList_this : ∀ (l : List α) (p : Ptr) {s s' : S α} {u : Unit}, constructList p l s = (.ok u, s') → s'.this = s.this := by
  intro l
  induction l with
  | nil => intro p s s' u h; cases h; rfl
  | cons x l ih =>
    intro p s s' u h
    obtain ⟨_, s1, h1, h2⟩ := bind_done h
    rw [ih _ h2, constructAt_this h1]

/-- The states of `fill` on its way. -/
theorem fill_parts {s s' : S α} {u : Unit} (h : fill cfg safe n l s = (.ok u, s')) :
    ∃ sA sB : S α, s' = { sB with this := { sA.this with fin := sA.this.fin + l.length } } ∧ sB.this = sA.this ∧
      fillThrowing cfg safe (some n) l true s = (do
        destroyRange cfg sA.this.finPtr l.length
        fail (.throw "filler")) sB := by
  rw [← fillThrowing_never] at h
  unfold fillThrowing at h
  obtain ⟨v, s0, h0, h⟩ := bind_done h
  cases h0
  obtain ⟨_, sA, hA, h⟩ := bind_done h
  obtain ⟨v, s0, h0, h⟩ := bind_done h
  cases h0
  obtain ⟨_, sB, hB, h⟩ := bind_done h
  simp only [Bool.false_eq_true, if_false] at h
  cases h
  refine ⟨sA, sB, rfl, constructList_this _ _ hB, ?_⟩
  unfold fillThrowing
  rw [bind_ok (this_apply _), bind_ok hA, bind_ok (this_apply _), bind_ok hB]
  rfl

/-! ### C149 -/

/-- C149, partial: a filler that throws when it is asked how many elements there will be leaves everything as it was. -/
theorem fill_query_throws_partial {v : Vec} {fails : Bool} (hv : w.vecs[i]? = some (some v)) :
    w.member i (noRet (fillThrowing cfg true none l fails)) = (.error (.throw "filler"), w) := by
  have e : noRet (fillThrowing cfg true none l fails) ⟨w.mem, v⟩ = (.error (.throw "filler"), ⟨w.mem, v⟩) := rfl
  rw [member_num hv e]
  congr 1
  obtain ⟨m, vs⟩ := w
  simp only at hv ⊢
  congr 1
  refine List.ext_getElem? fun k => ?_
  by_cases hki : i = k
  · subst hki
    rw [List.getElem?_set_self (lt_of_getElem? hv), hv]
  · rw [List.getElem?_set_ne hki]

/-- C149, partial: a filler that throws when it fills, after it has destroyed the elements it had made, leaves the elements of all vectors as
they were, and the program can go on. -/
theorem fill_throws_partial [DecidableEq α] (hg : Good cfg) (hr : Reachable cfg w) (hm : ∀ k b, b < 2 ^ 63 → cfg.malloc k b = true)
    (hx : w.Reads i xs) (hp : l.length ≤ n) (hroom : if safe then Fits cfg (xs.length + n) else xs.length + n ≤ w.capacity i)
    (hf : Fits cfg xs.length) :
    ∃ w', w.member i (noRet (fillThrowing cfg safe (some n) l true)) = (.error (.throw "filler"), w') ∧ Becomes cfg w w' i xs := by
  obtain ⟨w1, e1, b1⟩ := fill_appends (l := l) hg hr (hm _) hx hp hroom
  obtain ⟨r, w2, e2, b2, _⟩ := call_ok (op := .resize xs.length) hg b1.goesOn (hm _) b1.reads ⟨trivial, hf⟩
  obtain ⟨v, hv, hok, _⟩ := hr.vec hg hx
  obtain ⟨v1, hv1, hok1, _⟩ := b1.goesOn.vec hg b1.reads
  have hb : specStep cfg.dflt (xs ++ l) (.resize xs.length) = xs := by
    simp [specStep]
  rw [hb] at b2
  refine ⟨w2, ?_, b2.reads, fun j hj => (b2.others j hj).trans (b1.others j hj), b2.goesOn⟩
  rw [wstep, World.member, hv] at e1
  rcases h1 : step cfg (.fill safe n l) ⟨w.mem, v⟩ with ⟨r1, s1⟩
  simp only [h1] at e1
  obtain ⟨rfl, rfl⟩ := Prod.mk.inj e1
  unfold step at h1
  rw [bind_ok (this_apply _)] at h1
  obtain ⟨_, _, h1, h0⟩ := bind_done h1
  cases h0
  obtain ⟨sA, sB, rfl, hthis, ht⟩ := fill_parts h1
  have hv1' := set_vec (u := { sA.this with fin := sA.this.fin + l.length }) hv
  rw [hv1'] at hv1
  cases hv1
  have hfin : sA.this.fin = xs.length := by
    have := hok1.fin_eq
    simp only [List.length_append] at this
    omega
  rw [wstep, World.member, hv1'] at e2
  rcases h2 : step cfg (.resize xs.length) ⟨sB.mem, { sA.this with fin := sA.this.fin + l.length }⟩ with ⟨r2, s2⟩
  simp only [h2] at e2
  obtain ⟨rfl, rfl⟩ := Prod.mk.inj e2
  unfold step at h2
  rw [bind_ok (this_apply _)] at h2
  obtain ⟨_, _, h2, h0⟩ := bind_done h2
  cases h0
  unfold resize at h2
  rw [bind_ok (this_apply _), if_neg (by simp only; omega), bind_ok (setThis_apply _ _)] at h2
  have hsB : ({ (⟨sB.mem, { sA.this with fin := sA.this.fin + l.length }⟩ : S α) with
      this := { ({ sA.this with fin := sA.this.fin + l.length } : Vec) with fin := xs.length } } : S α) = sB := by
    cases sB; simp only at hthis ⊢; subst hthis; rw [← hfin]
  rw [hsB] at h2
  have hn : sA.this.fin + l.length - xs.length = l.length := by omega
  have hptr : Vec.ptr { sA.this with fin := sA.this.fin + l.length } xs.length = sA.this.finPtr := by
    simp only [Vec.ptr, Vec.finPtr, hfin]
  simp only [hn, hptr] at h2
  have e : noRet (fillThrowing cfg safe (some n) l true) ⟨w.mem, v⟩ = (.error (.throw "filler"), s2) := by
    refine bind_err ?_
    rw [ht, bind_ok h2]
    rfl
  rw [member_num hv e]
  simp

/-- The caller of `get_writebuffer(n)`, container/stdb_vector.hpp:906-916, makes the elements `made` in the new room and then throws. -/
def writeBufferThrowing (cfg : Cfg α) (safe : Bool) (n : Nat) (made : List α) : V α Unit := do
  let i ← getWritebuffer cfg safe n
  let v ← this
  constructList (v.ptr i) made
  fail (.throw "caller")

/-- C149 is violated by `get_writebuffer`, in every state: the size has grown before there are elements, so a caller who cannot make
all of them leaves a vector with elements that must not be read, nor, if they cannot be moved, destroyed. -/
theorem write_buffer_throws_violated [DecidableEq α] (hg : Good cfg) (hk : cfg.kind.loops) (hr : Reachable cfg w) (hx : w.Reads i xs)
    (hl : l.length < n) (hroom : xs.length + n ≤ w.capacity i) :
    ∃ w', w.member i (noRet (writeBufferThrowing cfg safe n l)) = (.error (.throw "caller"), w') ∧ w'.size i = xs.length + n ∧
      (∃ m, w'.look i (at' cfg (xs.length + l.length)) = some (.error (.ub m))) ∧
      (cfg.kind = .cpy → ∃ m, (wstep cfg w' (.destroy i)).1 = .error (.ub m)) := by
  obtain ⟨v, hv, hok, hfr⟩ := hr.vec hg hx
  rw [capacity_eq hv] at hroom
  have hfin := hok.fin_eq
  have h64 : n + xs.length < M64 := by
    have := Nat.le_mul_of_pos_right v.edge hg.1
    have := hok.bound
    omega
  obtain ⟨s2, e2, hp2⟩ := Post.append (s := ⟨w.mem, v⟩) (s1 := ⟨w.mem, v⟩) (l := l) hfr hok (Post.refl hok) (by simp only; omega)
  have e : noRet (writeBufferThrowing cfg safe n l) ⟨w.mem, v⟩
      = (.error (.throw "caller"), { s2 with this := { v with fin := xs.length + n } }) := by
    refine bind_err ?_
    unfold writeBufferThrowing
    have hget : getWritebuffer cfg safe n ⟨w.mem, v⟩ = (.ok xs.length, ⟨w.mem, { v with fin := xs.length + n }⟩) := by
      unfold getWritebuffer
      rw [bind_ok (this_apply _), doIf_neg (by simp only [hfin]; rw [add64_of_lt h64]; simp; omega), bind_ok (pure_apply _ _),
        bind_ok (this_apply _), bind_ok (setThis_apply _ _)]
      rw [hfin]; rfl
    rw [bind_ok hget, bind_ok (this_apply _)]
    have hptr : Vec.ptr { v with fin := xs.length + n } xs.length = v.finPtr := by simp only [Vec.ptr, Vec.finPtr, hfin]
    simp only [hptr]
    rw [bind_ok (e2 { v with fin := xs.length + n })]
    rfl
  have hok2 := hp2.ok
  simp only at hok2
  rcases hok2 with ⟨h, _⟩ | ⟨b, B, h, hB, hb⟩
  · have := congrArg Vec.edge h
    simp [nullVec] at this
    omega
  have hstart : v.start = some b := congrArg Vec.start h
  have hedge : v.edge = B.len := congrArg Vec.edge h
  have htail := hb.tail (xs.length + l.length) (by simp) (by omega)
  refine ⟨_, member_num hv e, by rw [size_eq (set_vec hv)], ?_, fun hc => ?_⟩
  · rw [look_eq (set_vec hv)]
    obtain ⟨q, hq⟩ := load_raw (s := { s2 with this := { v with fin := xs.length + n } }) (i := xs.length + l.length) hB (by omega)
      (fun x hx => by
        rcases hk with hk | hk
        · rw [hk] at htail; exact htail x hx
        · rw [hk, hx] at htail; cases htail)
    refine ⟨q, ?_⟩
    unfold at'
    rw [bind_ok (this_apply _), bind_ok (assert_true (by simp; omega) _)]
    have : Vec.ptr { v with fin := xs.length + n } (xs.length + l.length) = ⟨some b, xs.length + l.length⟩ := by
      simp only [Vec.ptr, hstart]
    simp only [this]
    exact congrArg (fun r => some r.1) hq
  · rw [hc] at htail
    obtain ⟨s', hs'⟩ := destroyRange_raw (cfg := cfg) (s := { s2 with this := { v with fin := xs.length + n } })
      (i := 0) (n := xs.length + n) (j := xs.length + l.length) (loops_not_triv hk) hB (by omega) (by omega)
      (by rw [Nat.zero_add]; exact htail)
    refine ⟨"destructor of an element that does not live", ?_⟩
    have : coreDestroy cfg { s2 with this := { v with fin := xs.length + n } }
        = (.error (.ub "destructor of an element that does not live"), s') := by
      unfold coreDestroy
      rw [bind_ok (this_apply _)]
      refine bind_err ?_
      have : Vec.startPtr { v with fin := xs.length + n } = ⟨some b, 0⟩ := by simp only [Vec.startPtr, hstart]
      simp only [this]
      exact hs'
    simp only [wstep]
    rw [member_throw (set_vec hv) this]

-- there are five elements and no room: the filler promises three, makes two, and throws
example : ∃ w', (exWorld .mov).member 0 (noRet (fillThrowing (exCfg .mov) true (some 3) [4, 5] true)) = (.error (.throw "filler"), w') ∧
    Becomes (exCfg .mov) (exWorld .mov) w' 0 [3, 1, 9, 2, 3] :=
  fill_throws_partial exGood exReach (fun _ _ _ => rfl) exReads.1 (by decide) (by unfold Fits exCfg; decide) (by unfold Fits exCfg; decide)

example : (exWorld .mov).member 0 (noRet (fillThrowing (exCfg .mov) true none [4, 5] true)) = (.error (.throw "filler"), exWorld .mov) :=
  fill_query_throws_partial (v := ((exWorld .mov).vecs[0]?.join).get (by decide +kernel)) (by decide +kernel)

/-- Vectors of elements that cannot be moved, with room to spare. -/
def roomyProg : List (WOp Nat) := [.ctorRange (.forward [3, 1]), .call 0 (.reserve 6)]

theorem roomyLegal : Legal (exCfg .cpy) World.empty [] roomyProg := by
  simp only [roomyProg, Legal]
  exact ⟨fun _ _ => rfl, ⟨by simp [Source.Copied], by unfold Fits exCfg; decide⟩, fun _ _ => rfl,
    ⟨[3, 1], rfl, trivial, by unfold Requires Fits exCfg; decide⟩, trivial⟩

-- room for three more elements is asked for, one is made
example : ∃ w', (run (exCfg .cpy) World.empty roomyProg).2.member 0 (noRet (writeBufferThrowing (exCfg .cpy) true 3 [8]))
      = (.error (.throw "caller"), w') ∧ w'.size 0 = 5 ∧ (∃ m, w'.look 0 (at' (exCfg .cpy) 3) = some (.error (.ub m))) ∧
      ((exCfg .cpy).kind = .cpy → ∃ m, (wstep (exCfg .cpy) w' (.destroy 0)).1 = .error (.ub m)) :=
  write_buffer_throws_violated (w := (run (exCfg .cpy) World.empty roomyProg).2) (xs := [3, 1]) (by unfold Good exCfg; decide) (.inr rfl)
    ⟨roomyProg, roomyLegal, rfl⟩ (by unfold World.Reads; decide +kernel) (by decide) (by decide +kernel)

end Verif.Vector

import Verif.Str.StringProps

/-!
C141: `basic_string` says of itself that its objects may be relocated (`using IsRelocatable = std::true_type`, string.hpp:1071): a
container may copy the bytes of a string to another place and forget the old place, without calling the move constructor and the destructor.
-/

namespace Verif.Str

variable {cfg : Cfg} {s s' : St} {a a' : Abs}

/-- `std::memcpy` of the object `v` to the place `w`, where there is no object, after which nobody uses the bytes at `v` any more.  The bytes of
a string are the union of string.hpp:667-672 (characters, or the pointer to the block with size and capacity; arena_string.hpp:470-478 has the
same) and the allocator (arena_string.hpp:468), so that the same object is at `w` then: pointers into the union (`Ptr.inl`) are never stored. -/
def relocate (v w : Nat) : M Unit := fun s =>
  match s.vars (.user v), s.vars (.user w) with
  | some ob, none => (.ok (), { s with vars := upd (upd s.vars (.user v) none) (.user w) (some ob) })
  | _, _ => (.error (.ub "no string to relocate, or one in its way"), s)

/-- The same, but the bytes at `v` are used as a string from then on, too. -/
def duplicate (v w : Nat) : M Unit := fun s =>
  match s.vars (.user v), s.vars (.user w) with
  | some ob, none => (.ok (), { s with vars := upd s.vars (.user w) (some ob) })
  | _, _ => (.error (.ub "no string to duplicate, or one in its way"), s)

/-- Programs that use strings and relocate them. -/
inductive Relocating (cfg : Cfg) : Abs → St → Prop
  | start : Relocating cfg (fun _ => none) St.init
  | done {a a' : Abs} {s s' : St} {op : Op} : Relocating cfg a s → op.spec cfg.arena a = some (.done a') →
      op.run cfg s = (.ok (), s') → Relocating cfg a' s'
  | caught {a a' a1 : Abs} {s s' : St} {op : Op} {w : String} : Relocating cfg a s → op.spec cfg.arena a = some (.done a1) →
      op.run cfg s = (.error (.throw w), s') → s'.lost = false →
      (∀ i, a' i = if op.weak = some i then (contents cfg i s').1.toOption else a i) →
      Relocating cfg a' { s' with refused := false }
  | moved {a : Abs} {s s' : St} {v w : Nat} {xs : List Ch} : Relocating cfg a s → a v = some xs → a w = none →
      relocate v w s = (.ok (), s') → Relocating cfg (upd (upd a v none) w (some xs)) s'

theorem Reach.live (hc : cfg.Ok) (h : Reach cfg a s) {v : Nat} {xs : List Ch} (hv : a v = some xs) : ∃ ob, s.vars (.user v) = some ob := by
  obtain ⟨ob, _, _, h1, _⟩ := (reach_rel hc h).1.held v xs hv
  exact ⟨ob, h1.var⟩

theorem Reach.free (hc : cfg.Ok) (h : Reach cfg a s) {v : Nat} (hv : a v = none) : s.vars (.user v) = none :=
  (reach_rel hc h).1.absent v hv

/-- C141: relocating a string never fails, and is the same as calling the move constructor for the new place and the destructor for the old one:
the memory is the same afterwards, bit by bit. -/
theorem relocate_is_move (hc : cfg.Ok) (h : Reach cfg a s) {v w : Nat} {xs : List Ch} (hv : a v = some xs) (hw : a w = none) :
    ∃ s1 s', relocate v w s = (.ok (), s') ∧ (Op.move w v).run cfg s = (.ok (), s1) ∧ (Op.destroy v).run cfg s1 = (.ok (), s') := by
  obtain ⟨ob, ho⟩ := h.live hc hv
  have hn := h.free hc hw
  have hne : (Obj.user v) ≠ .user w := by intro e; rw [e, hn] at ho; cases ho
  have hal := (reach_rel hc h).1.inv.al _ ob ho
  have hlog : (cfg.arena && cfg.dbg && ob.al == 0) = false := by
    cases ha : cfg.arena with
    | false => simp
    | true => rw [ha] at hal; simp at hal; simp [hal]
  have hne' := hne.symm
  obtain ⟨c, hm⟩ : ∃ c, (Op.move w v).run cfg s =
      (.ok (), { s with vars := upd (upd s.vars (.user w) (some ob)) (.user v) (some ⟨.small c, ob.al⟩) }) := by
    have h0 : ∀ m, assert cfg true m = pure () := by intro m; simp [assert]
    simp [Op.run, ctorMove, construct, constructing, newOb, setCore, setSmallSize, bind, M.bind, getOb, ho, hn, hlog,
      upd_other _ _ hne, h0, pure, M.pure]
    exact ⟨_, rfl⟩
  refine ⟨_, _, by simp only [relocate, ho, hn]; rfl, hm, ?_⟩
  obtain ⟨core, al⟩ := ob
  simp only [Op.run, destroy, release, dropOb, bind, M.bind, getOb, upd_same, pure, M.pure, upd_upd]
  rw [upd_comm _ hne']

/-- Whatever a program that relocates strings can reach can be reached without, so that all that is proved of programs with strings holds. -/
theorem Relocating.reach (hc : cfg.Ok) (h : Relocating cfg a s) : Reach cfg a s := by
  induction h with
  | start => exact .start
  | done _ h1 h2 ih => exact .done ih h1 h2
  | caught _ h1 h2 h3 h4 ih => exact .caught ih h1 h2 h3 h4
  | @moved a s s' v w xs _ hv hw hr ih =>
    obtain ⟨s1, s2, h1, h2, h3⟩ := relocate_is_move hc ih hv hw
    have e : s2 = s' := by rw [h1] at hr; cases hr; rfl
    subst e
    have hne : v ≠ w := by rintro rfl; rw [hv] at hw; cases hw
    have r1 := ih.done (op := .move w v) (a' := upd (upd a w (some xs)) v (some [])) (by simp [Op.spec, hv, hw]) h2
    have r2 := r1.done (op := .destroy v) (a' := upd (upd (upd a w (some xs)) v (some [])) v none) (by simp [Op.spec]) h3
    rwa [upd_upd, upd_comm _ hne.symm] at r2

/-- C141: in a program that relocates strings every string has the contents it should have: relocating changes none, and the string is then at
its new place.  The calls that follow do what they should, without undefined behaviour. -/
theorem relocated_contents (hc : cfg.Ok) (h : Relocating cfg a s) {v : Nat} {xs : List Ch} (hv : a v = some xs) :
    contents cfg v s = (.ok xs, s) :=
  contents_reached hc (h.reach hc) hv

/-- C141: after strings have been relocated calls do what they should, or fail because memory was refused, as in any program. -/
theorem relocated_ops (hc : cfg.Ok) (h : Relocating cfg a s) {op : Op} (ho : op.spec cfg.arena a = some (.done a')) :
    (∃ s', op.run cfg s = (.ok (), s') ∧ Relocating cfg a' s' ∧ ∀ v xs, a' v = some xs → contents cfg v s' = (.ok xs, s')) ∨
    (∃ e s', op.run cfg s = (.error e, s') ∧ s.refused = false ∧ s'.refused = true ∧
      (e = .throw "bad_alloc" ∨ e = .throw "length_error" ∨ e = .throw "terminate" ∨ cfg.arena = false ∧ s'.lost = true)) := by
  rcases ops_meet_spec hc (h.reach hc) ho with ⟨s', h1, _, h2⟩ | h1
  · exact .inl ⟨s', h1, h.done ho h1, h2⟩
  · exact .inr h1

/-- C141: pointers to the characters stay good when these are in a buffer. -/
theorem relocated_data {v w b : Nat} (hd : dataPtr (.user v) s = (.ok (.blk b 0), s)) (hr : relocate v w s = (.ok (), s')) :
    dataPtr (.user w) s' = (.ok (.blk b 0), s') ∧ s'.heap = s.heap := by
  unfold relocate at hr
  split at hr
  · next ob h1 h2 =>
    cases hr
    simp only [dataPtr, bind, M.bind, getOb, h1] at hd
    simp only [dataPtr, bind, M.bind, getOb, upd_same, and_true]
    obtain ⟨core, al⟩ := ob
    cases core <;> simp_all [pure, M.pure, Core.ptr]
  · cases hr

/-- C141: no buffer is lost or freed twice: each one is used by as many strings as its count says, and when no strings are left there are none. -/
theorem relocated_buffers (hc : cfg.Ok) (ha : cfg.arena = false) (h : Relocating cfg a s) :
    (∀ b B, s.heap b = some B → ∃ L : List Nat, L.Nodup ∧ (∀ v, v ∈ L ↔ uses s b v) ∧ L ≠ [] ∧ L.length = B.rc.getD 1) ∧
    ((∀ v, a v = none) → ∀ b, s.heap b = none) :=
  ⟨fun _ _ hb => reference_counts hc ha (h.reach hc) hb, fun hd b => no_leaks hc ha (h.reach hc) hd b⟩

set_option maxRecDepth 4000 in
-- a large string that shares its buffer and a small one are relocated, then used, and destroyed
example : ∀ dbg, ∃ a s, Relocating (heapCfg dbg) a s ∧ a 0 = none ∧ a 7 = some (List.replicate 300 97 ++ [98]) ∧ a 8 = some [99, 100] ∧
    a 1 = some (List.replicate 300 97) := by
  intro dbg
  have step : ∀ {a a' : Abs} {s : St} {op : Op}, Relocating (heapCfg dbg) a s → op.spec false a = some (.done a') →
      (op.run (heapCfg dbg) s).1 = .ok () → Relocating (heapCfg dbg) a' (op.run (heapCfg dbg) s).2 := fun h ho e => .done h ho (Prod.ext e rfl)
  have move : ∀ {a : Abs} {s : St} {v w : Nat} {xs : List Ch}, Relocating (heapCfg dbg) a s → a v = some xs → a w = none →
      (relocate v w s).1 = .ok () → Relocating (heapCfg dbg) (upd (upd a v none) w (some xs)) (relocate v w s).2 :=
    fun h h1 h2 e => .moved h h1 h2 (Prod.ext e rfl)
  have r1 := step .start (op := .makeFill 0 0 300 97) (a' := upd (fun _ => none) 0 (some (List.replicate 300 97))) rfl (by cases dbg <;> decide +kernel)
  have r2 := step r1 (op := .copy 1 0) (a' := upd _ 1 (some (List.replicate 300 97))) rfl (by cases dbg <;> decide +kernel)
  have r3 := step r2 (op := .make 2 0 (.lit [99, 100])) (a' := upd _ 2 (some [99, 100])) rfl (by cases dbg <;> decide +kernel)
  have r4 := move r3 (v := 0) (w := 7) rfl rfl (by cases dbg <;> decide +kernel)
  have r5 := move r4 (v := 2) (w := 8) rfl rfl (by cases dbg <;> decide +kernel)
  have r6 := step r5 (op := .pushBack 7 98) (a' := upd _ 7 (some (List.replicate 300 97 ++ [98]))) rfl (by cases dbg <;> decide +kernel)
  exact ⟨_, _, r6, rfl, rfl, rfl, rfl⟩

-- the old place has to be forgotten: when it is used as a string, too, the buffer is freed twice
example :
    ((do
      (Op.makeFill 0 0 100 97).run (heapCfg false)
      duplicate 0 1
      (Op.destroy 0).run (heapCfg false)
      (Op.destroy 1).run (heapCfg false) : M Unit) St.init).1 = .error (.ub "double free") := by decide +kernel

end Verif.Str

import Verif.Str.FirmProps

/-!
C142: the memory building a string takes, when calls fail for want of memory and the program goes on.
-/

namespace Verif.Str

open M Caps Mem Firm

variable {cfg : Cfg} {a a' : Abs} {s s' : St} {xs : List Ch} {op : Op} {P : Ptr} {c v N al n : Nat}

/-! ### Specification -/

/-- A run of calls that build up the string `v` or take characters away, from contents `a` and state `s` to `a'` and `s'`; those that
fail for want of memory throw and the program goes on.  `n` is the greatest length the string ever has. -/
inductive Builds (cfg : Cfg) (v : Nat) : Abs → St → Nat → Abs → St → Prop
  | stop {a : Abs} {s : St} {xs : List Ch} : a v = some xs → Builds cfg v a s xs.length a s
  | done {a a1 a' : Abs} {s s1 s' : St} {xs : List Ch} {op : Op} {n : Nat} : a v = some xs → op.builds v = true →
      op.spec cfg.arena a = some (.done a1) → op.run cfg s = (.ok (), s1) → Builds cfg v a1 s1 n a' s' →
      Builds cfg v a s (max xs.length n) a' s'
  | failed {a a1 a' : Abs} {s s1 s' : St} {op : Op} {w : String} {n : Nat} : op.builds v = true →
      op.spec cfg.arena a = some (.done a1) → op.run cfg s = (.error (.throw w), s1) → s1.lost = false →
      Builds cfg v a { s1 with refused := false } n a' s' → Builds cfg v a s n a' s'

namespace Mem

theorem builds_ge (h : Builds cfg v a s n a' s') (hx : a v = some xs) : xs.length ≤ n := by
  induction h generalizing xs with
  | stop h => rw [hx] at h; cases h; exact Nat.le_refl _
  | done h => rw [hx] at h; cases h; exact Nat.le_max_left _ _
  | failed _ _ _ _ _ ih => exact ih hx

theorem bytesTaken_bare {s0 : St} {w : Nat} (h0 : s0.next ≤ s.next) (hf : ∀ b, s.next ≤ b → s.heap b = none) (h : Bare s s') :
    bytesTaken w al s0 s' = bytesTaken w al s0 s := by
  rw [bytesTaken_eq, bytesTaken_eq]
  have hc : cost w al s' = cost w al s := by
    funext b
    unfold cost
    rw [h.heap]
  rw [hc]
  have hn := h.next
  have hsp : s'.next - s0.next = (s.next - s0.next) + (s'.next - s.next) := by omega
  rw [hsp, ← List.range'_append_1, List.map_append, List.sum_append]
  have : ((List.range' (s0.next + (s.next - s0.next)) (s'.next - s.next)).map (cost w al s)).sum = 0 := by
    refine Nat.le_zero.1 (Nat.le_trans (sum_le (g := fun _ => 0) fun b hb => ?_) (by simp))
    simp at hb
    unfold cost
    rw [hf b (by omega)]
  omega

end Mem

theorem Op.builds_weak (h : op.builds v = true) : op.weak = none := by
  cases op <;> first | rfl | cases h

/-- What is left after a call that failed. -/
theorem failed_step {w : String} (hc : cfg.Ok) (h : Reach cfg a s) (hv : op.builds v = true) (ho : op.spec cfg.arena a = some (.done a'))
    (hx : a v = some xs) (hst : (storage cfg v s).1 = .ok (P, c, false)) (hr : op.run cfg s = (.error (.throw w), s'))
    (hl : s'.lost = false) :
    Reach cfg a { s' with refused := false } ∧ (storage cfg v { s' with refused := false }).1 = .ok (P, c, false) ∧
      Bare s { s' with refused := false } := by
  have hb : Bare s { s' with refused := false } := by
    rcases builds_firm hc h hv ho hx (h.here hc hx hst) w s' hr with ⟨_, h1⟩ | ⟨h1, h2, h3⟩
    · rw [hl] at h1; cases h1
    · exact ⟨h1, h2, h3⟩
  refine ⟨h.caught ho hr hl fun i => ?_, (storage_seen v _ _ hb).trans hst, hb⟩
  rw [Op.builds_weak hv]
  rfl

theorem memory_caught (hc : cfg.Ok) {s0 : St} (hb : Builds cfg v a s n a' s') :
    ∀ {xs : List Ch} {P : Ptr} {c : Nat}, Reach cfg a s → a v = some xs → (storage cfg v s).1 = .ok (P, c, false) → n ≤ N →
    s0.next ≤ s.next → Covered cfg (bytesTaken cfg.w al s0 s) c (most cfg N) →
    ∃ c', Covered cfg (bytesTaken cfg.w al s0 s') c' (most cfg N) := by
  induction hb with
  | stop _ => intro xs P c _ _ _ _ _ hcov; exact ⟨c, hcov⟩
  | @failed a a1 a' s s1 s' op w n hv ho hr hl _ ih =>
    intro xs P c h hx hst hN h0 hcov
    obtain ⟨h1, h2, h3⟩ := failed_step hc h hv ho hx hst hr hl
    refine ih h1 hx h2 hN (Nat.le_trans h0 h3.next) ?_
    rw [bytesTaken_bare h0 (reach_rel hc h).1.inv.fresh h3]
    exact hcov
  | @done a a1 a' s s1 s' xs' op n hx' hv ho hr hnext ih =>
    intro xs P c h hx hst hN h0 hcov
    rw [hx'] at hx; cases hx
    obtain ⟨c1, hc1, ys, P1, hy, hst1, hnx, hreach⟩ := memory_step (al := al) hc h hv ho hx' hst hr (N := N) (fun ys hy => by
      have := builds_ge hnext hy
      omega) h0 hcov
    exact ih hreach hy hst1 (by omega) hnx hc1

/-! ### C142 -/

/-- C142: the bound also holds when some of the calls fail for want of memory and the program goes on, however many do and whatever
they asked for: what is refused costs nothing, and what is taken stays in proportion to the greatest length the string really
had.  Missing: refused `realloc`s, which no string on an arena makes; and `resize`, for which this is false. -/
theorem building_memory_caught_partial (hc : cfg.Ok) (h : Reach cfg a s) (hx : a v = some xs)
    (hst : (storage cfg v s).1 = .ok (P, c, false)) (hb : Builds cfg v a s n a' s') :
    bytesTaken cfg.w al s s' ≤ 6 * (n * cfg.w) + 312 := by
  obtain ⟨c', hcov⟩ := memory_caught (al := al) (s0 := s) (N := n) hc hb h hx hst (Nat.le_refl _) (Nat.le_refl _)
    (Or.inl (by unfold bytesTaken newBlocks; simp))
  rcases hcov with h1 | ⟨c1, _, h2, h3⟩
  · omega
  · unfold most Cfg.ms at h2
    rcases hc.w with e | e | e <;> rw [e] at h2 h3 ⊢ <;> omega

/-- The state after the call that failed. -/
def afterRefused : St :=
  { ((Op.appendFill 0 1000 98).run (arenaRefusing false 0) (runOk (arenaRefusing false 0) [.makeFill 0 1 20 97] St.init).2).2 with
    refused := false }

-- appending 1000 characters is refused, then 50 are appended: 70 at most, and 71 bytes are taken
example : ∃ a a' s s', Reach (arenaRefusing false 0) a s ∧ a 0 = some (List.replicate 20 97) ∧
    (storage (arenaRefusing false 0) 0 s).1 = .ok (.inl (.user 0) 0, 23, false) ∧ Builds (arenaRefusing false 0) 0 a s 70 a' s' ∧
    bytesTaken 1 1 s s' = 71 := by
  obtain ⟨a, h, ha, hs⟩ := reached (arenaRefusing_ok false 0) (ops := [.makeFill 0 1 20 97]) (v := 0) (xs := List.replicate 20 97)
    (by decide +kernel) (by decide +kernel)
  refine ⟨a, upd a 0 (some (List.replicate 20 97 ++ List.replicate 50 98)), _,
    ((Op.appendFill 0 50 98).run (arenaRefusing false 0) afterRefused).2, h, ha, by decide +kernel, ?_, by decide +kernel⟩
  refine .failed (op := .appendFill 0 1000 98) (a1 := upd a 0 (some (List.replicate 20 97 ++ List.replicate 1000 98))) (w := "bad_alloc") rfl ?_
    (Prod.ext (by decide +kernel) rfl) (by decide +kernel) (.done (xs := List.replicate 20 97) (n := 70) (op := .appendFill 0 50 98) ha rfl ?_
      (Prod.ext (by decide +kernel) rfl) (.stop (xs := List.replicate 20 97 ++ List.replicate 50 98) (upd_same _ _ _)))
  · simp only [Op.spec, ha, Option.bind_eq_bind, Option.bind_some]
    exact if_pos (by rw [List.length_append, List.length_replicate, List.length_replicate]; decide)
  · simp only [Op.spec, ha, Option.bind_eq_bind, Option.bind_some]
    exact if_pos (by rw [List.length_append, List.length_replicate, List.length_replicate]; decide)

end Verif.Str

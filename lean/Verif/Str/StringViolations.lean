import Verif.Str.StringPlus
import Mathlib.Data.List.Perm.Subperm

/-!
Strings on arenas, and the places where the strings do not do what they should: concrete programs.
-/

namespace Verif.Str

open M

variable {cfg : Cfg} {s s' : St} {a a' : Abs} {v : Nat} {xs ys : List Ch}

/-! ### C49: pointers to shared characters -/

/-- C49, violated for `data()` of a string that is not const: writing through it changes a copy. -/
theorem data_shared_violated : ∃ a s, Reach (heapCfg false) a s ∧ a 1 = some (List.replicate 300 97) ∧
    ∃ p, (dataPtr (.user 0) s).1 = .ok p ∧ (writeCells p [some 98] s).1 = .ok () ∧
      (contents (heapCfg false) 1 (writeCells p [some 98] s).2).1 = .ok (98 :: List.replicate 299 97) := by
  obtain ⟨a, h, e, _⟩ := reached (heapCfg_ok false) (v := 1) (xs := List.replicate 300 97)
    (ops := [.makeFill 0 0 300 97, .copy 1 0]) (by decide +kernel) (by decide +kernel)
  exact ⟨a, _, h, e, .blk 0 0, by decide +kernel, by decide +kernel, by decide +kernel⟩

/-- C49, violated for iterators taken before a copy is made: writing through them changes the copy. -/
theorem iterator_shared_violated : ∃ a s b, Reach (heapCfg false) a s ∧ a 0 = some (List.replicate 300 97) ∧
    (begin_ (heapCfg false) (.user 0) s).1 = .ok b ∧
    (let s1 := ((Op.copy 1 0).run (heapCfg false) (begin_ (heapCfg false) (.user 0) s).2).2
     (contents (heapCfg false) 1 s1).1 = .ok (List.replicate 300 97) ∧ (writeCells b [some 98] s1).1 = .ok () ∧
       (contents (heapCfg false) 1 (writeCells b [some 98] s1).2).1 = .ok (98 :: List.replicate 299 97)) := by
  obtain ⟨a, h, e, _⟩ := reached (heapCfg_ok false) (v := 0) (xs := List.replicate 300 97)
    (ops := [.makeFill 0 0 300 97]) (by decide +kernel) (by decide +kernel)
  exact ⟨a, _, .blk 0 0, h, e, by decide +kernel, by decide +kernel⟩

/-! ### C58: own characters as arguments -/

/-- C58, violated for `insert`: the result is wrong (in place), or freed memory is read. -/
theorem insert_alias_violated :
    (∃ a s, Reach (heapCfg false) a s ∧ a 0 = some [97, 98, 99, 100, 101] ∧
      ((Op.insert 0 0 (.sub 0 1 2)).run (heapCfg false) s).1 = .ok () ∧
      (contents (heapCfg false) 0 ((Op.insert 0 0 (.sub 0 1 2)).run (heapCfg false) s).2).1 = .ok [98, 97, 97, 98, 99, 100, 101]) ∧
    (∃ a s, Reach (heapCfg false) a s ∧ a 0 = some (List.replicate 300 97) ∧
      ((Op.insert 0 0 (.sub 0 1 2)).run (heapCfg false) s).1 = .error (.ub "read of a freed block")) := by
  constructor
  · obtain ⟨a, h, e, _⟩ := reached (heapCfg_ok false) (v := 0) (xs := [97, 98, 99, 100, 101])
      (ops := [.make 0 0 (.lit [97, 98, 99, 100, 101])]) (by decide +kernel) (by decide +kernel)
    exact ⟨a, _, h, e, by decide +kernel, by decide +kernel⟩
  · obtain ⟨a, h, e, _⟩ := reached (heapCfg_ok false) (v := 0) (xs := List.replicate 300 97)
      (ops := [.makeFill 0 0 300 97]) (by decide +kernel) (by decide +kernel)
    exact ⟨a, _, h, e, by decide +kernel⟩

/-- C58, violated for `append(first, last)` with iterators into the string itself. -/
theorem append_range_alias_violated : ∃ a s, Reach (heapCfg false) a s ∧ a 0 = some (List.replicate 300 97) ∧
    ((Op.appendRange 0 (.sub 0 1 2)).run (heapCfg false) s).1 = .error (.ub "read of a freed block") := by
  obtain ⟨a, h, e, _⟩ := reached (heapCfg_ok false) (v := 0) (xs := List.replicate 300 97)
    (ops := [.makeFill 0 0 300 97]) (by decide +kernel) (by decide +kernel)
  exact ⟨a, _, h, e, by decide +kernel⟩

/-- C58, violated for `append` with a range that includes the terminator of the string itself. -/
theorem append_terminator_violated : ∃ a s, Reach (heapCfg true) a s ∧ a 0 = some [97, 98, 99, 100, 101] ∧
    ((Op.append 0 (.sub 0 5 1)).run (heapCfg true) s).1 = .error (.ub "read of a freed block") := by
  obtain ⟨a, h, e, _⟩ := reached (heapCfg_ok true) (v := 0) (xs := [97, 98, 99, 100, 101])
    (ops := [.make 0 0 (.lit [97, 98, 99, 100, 101])]) (by decide +kernel) (by decide +kernel)
  exact ⟨a, _, h, e, by decide +kernel⟩

/-! ### C60: lengths that wrap -/

/-- C60, violated for `append(n, c)` and `insert(pos, n, c)`: `size() + n` wraps, no exception is
thrown and memory outside the string is written. -/
theorem append_wraps_violated : ∃ a s, Reach (heapCfg false) a s ∧ a 0 = some [97, 98, 99, 100, 101] ∧
    ((Op.appendFill 0 18446744073709551614 120).run (heapCfg false) s).1 = .error (.ub "fill outside the array") := by
  obtain ⟨a, h, e, _⟩ := reached (heapCfg_ok false) (v := 0) (xs := [97, 98, 99, 100, 101])
    (ops := [.make 0 0 (.lit [97, 98, 99, 100, 101])]) (by decide +kernel) (by decide +kernel)
  exact ⟨a, _, h, e, by decide +kernel⟩

/-- C60, violated for `insert(pos, n, c)`. -/
theorem insert_wraps_violated : ∃ a s, Reach (heapCfg false) a s ∧ a 0 = some [97, 98, 99, 100, 101] ∧
    ((Op.insertFill 0 0 18446744073709551614 120).run (heapCfg false) s).1 = .error (.ub "write outside a string object") := by
  obtain ⟨a, h, e, _⟩ := reached (heapCfg_ok false) (v := 0) (xs := [97, 98, 99, 100, 101])
    (ops := [.make 0 0 (.lit [97, 98, 99, 100, 101])]) (by decide +kernel) (by decide +kernel)
  exact ⟨a, _, h, e, by decide +kernel⟩

/-! ### C81, C85: memory refused -/

/-- C81, violated: when `realloc` is refused the buffer is freed although the string goes on using it;
reading the string afterwards, or destroying it, is undefined. -/
theorem realloc_refused_violated : ∃ a s, Reach (refusing false 1) a s ∧ a 0 = some (List.replicate 300 97) ∧
    ((Op.pushBack 0 98).run (refusing false 1) s).1 = .error (.throw "bad_alloc") ∧
    (contents (refusing false 1) 0 ((Op.pushBack 0 98).run (refusing false 1) s).2).1 = .error (.ub "read of a freed block") ∧
    ((Op.destroy 0).run (refusing false 1) ((Op.pushBack 0 98).run (refusing false 1) s).2).1 =
      .error (.ub "reference count of a block that has none") := by
  obtain ⟨a, h, e, _⟩ := reached (refusing_ok false 1) (v := 0) (xs := List.replicate 300 97)
    (ops := [.makeFill 0 0 300 97]) (by decide +kernel) (by decide +kernel)
  exact ⟨a, _, h, e, by decide +kernel, by decide +kernel, by decide +kernel⟩

/-- C85, violated: copying a string of medium length calls `std::terminate` when memory is refused. -/
theorem copy_terminates_violated : ∃ a s, Reach (refusing false 1) a s ∧ a 0 = some (List.replicate 100 97) ∧
    ((Op.copy 1 0).run (refusing false 1) s).1 = .error (.throw "terminate") := by
  obtain ⟨a, h, e, _⟩ := reached (refusing_ok false 1) (v := 0) (xs := List.replicate 100 97)
    (ops := [.makeFill 0 0 100 97]) (by decide +kernel) (by decide +kernel)
  exact ⟨a, _, h, e, by decide +kernel⟩

/-- C85, violated: so does writing to a character of a shared string. -/
theorem write_terminates_violated : ∃ a s, Reach (refusing false 1) a s ∧ a 0 = some (List.replicate 300 97) ∧
    ((Op.setAt 0 7 98).run (refusing false 1) s).1 = .error (.throw "terminate") := by
  obtain ⟨a, h, e, _⟩ := reached (refusing_ok false 1) (v := 0) (xs := List.replicate 300 97)
    (ops := [.makeFill 0 0 300 97, .copy 1 0]) (by decide +kernel) (by decide +kernel)
  exact ⟨a, _, h, e, by decide +kernel⟩

/-! ### C84: std::to_string -/

/-- C84, violated: characters after a NUL are lost. -/
theorem to_string_truncates_violated : ∃ a s, Reach (heapCfg false) a s ∧ a 0 = some [97, 0, 99] ∧
    toStdString (.user 0) s = (.ok [some 97], s) := by
  obtain ⟨a, h, e, _⟩ := reached (heapCfg_ok false) (v := 0) (xs := [97, 0, 99])
    (ops := [.make 0 0 (.lit [97, 0, 99])]) (by decide +kernel) (by decide +kernel)
  exact ⟨a, _, h, e, to_string_spec (heapCfg_ok _) h e⟩

/-- C82, violated: two different strings of `char16_t` have equal hashes whatever the hash function. -/
theorem hash_collision_violated : ∃ a s, Reach (heapCfg false 2) a s ∧ a 0 = some [97, 98, 99, 100] ∧ a 1 = some [97, 98, 99, 101] ∧
    ∀ H, ∃ k, hash H (heapCfg false 2) (.user 0) s = (.ok k, s) ∧ hash H (heapCfg false 2) (.user 1) s = (.ok k, s) := by
  obtain ⟨a, h, e, g⟩ := reached (heapCfg_ok2 false) (v := 0) (xs := [97, 98, 99, 100])
    (ops := [.make 0 0 (.lit [97, 98, 99, 100]), .make 1 0 (.lit [97, 98, 99, 101])]) (by decide +kernel) (by decide +kernel)
  have e1 : a 1 = some [97, 98, 99, 101] := by
    have : (specAll false [.make 0 0 (.lit [97, 98, 99, 100]), .make 1 0 (.lit [97, 98, 99, 101])] fun _ => none).bind (· 1) =
      some [97, 98, 99, 101] := by decide +kernel
    rw [show specAll false _ _ = some a from g] at this
    exact this
  exact ⟨a, _, h, e, e1, fun H => hash_ignores_tail_violated H (heapCfg_ok2 _) (by decide) h e e1 rfl rfl⟩

/-! ### C62: strings on arenas -/

/-- C62: the buffer a string on an arena uses is there. -/
theorem arena_buffers_alive (hc : cfg.Ok) (h : Reach cfg a s) {b : Nat} (hu : uses s b v) : (s.heap b).isSome := by
  obtain ⟨ob, n, cap, large, e1, e2⟩ := hu
  have := (reach_rel hc h).1.inv.core _ _ e1
  rw [e2] at this
  obtain ⟨B, hB, _⟩ := this
  rw [hB]; rfl

/-- C62: a count is never less than the number of strings that share the buffer, so that a shared
buffer is never taken for an unshared one. -/
theorem arena_counts (hc : cfg.Ok) (h : Reach cfg a s) {b n : Nat} {B : Blk} (hb : s.heap b = some B) (hn : B.rc = some n) {L : List Nat} (hL : L.Nodup)
    (hu : ∀ v ∈ L, uses s b v) : L.length ≤ n := by
  have hr := (reach_rel hc h).1
  obtain ⟨K, h1, h2, h3, h4⟩ := hr.inv.own b B hb
  rw [hn] at h4
  simp only at h4
  have hsub : L.map Obj.user ⊆ K := by
    intro o ho
    obtain ⟨v, hv, rfl⟩ := List.mem_map.1 ho
    obtain ⟨ob, m, cap, large, e1, e2⟩ := hu v hv
    rw [h2]
    simp [blkOf, e1, Core.blk?, e2]
  have hnd : (L.map Obj.user).Nodup := hL.map (fun _ _ e => by simpa using e)
  have := (List.subperm_of_subset hnd hsub).length_le
  rw [List.length_map] at this
  exact Nat.le_trans this h4.1

/-- C62, violated: after `swap` of strings on two arenas each uses the memory of the other's arena. -/
theorem arena_swap_violated : ∃ a s ob B, Reach (arenaCfg false) a s ∧ s.vars (.user 0) = some ob ∧ ob.al = 1 ∧
    ob.core.blk? = some 1 ∧ s.heap 1 = some B ∧ B.src = 2 := by
  obtain ⟨a, h, e, _⟩ := reached (arenaCfg_ok false) (v := 0) (xs := List.replicate 100 98)
    (ops := [.makeFill 0 1 100 97, .makeFill 1 2 100 98, .swap 0 1]) (by decide +kernel) (by decide +kernel)
  refine ⟨a, _, _, _, h, Option.eq_some_of_isSome (o := St.vars _ _) ?_, ?_, ?_, Option.eq_some_of_isSome (o := St.heap _ 1) ?_, ?_⟩ <;> decide +kernel

/-- C62, violated: `replace` with a source in the string itself throws in debug builds; in release
builds a block of the default resource ends up in the string. -/
theorem arena_replace_alias_violated :
    (∃ a s, Reach (arenaCfg true) a s ∧ a 0 = some [97, 98, 99, 100, 101] ∧
      ((Op.replace 0 0 1 (.sub 0 1 2)).run (arenaCfg true) s).1 = .error (.throw "logic_error")) ∧
    (∃ a s, Reach (arenaCfg false) a s ∧ a 0 = some (List.replicate 100 97) ∧
      ((Op.replace 0 0 1 (.sub 0 1 99)).run (arenaCfg false) s).1 = .error (.ub "deallocate with the wrong resource")) := by
  constructor
  · obtain ⟨a, h, e, _⟩ := reached (arenaCfg_ok true) (v := 0) (xs := [97, 98, 99, 100, 101])
      (ops := [.make 0 1 (.lit [97, 98, 99, 100, 101])]) (by decide +kernel) (by decide +kernel)
    exact ⟨a, _, h, e, by decide +kernel⟩
  · obtain ⟨a, h, e, _⟩ := reached (arenaCfg_ok false) (v := 0) (xs := List.replicate 100 97)
      (ops := [.makeFill 0 1 100 97]) (by decide +kernel) (by decide +kernel)
    exact ⟨a, _, h, e, by decide +kernel⟩

/-- C62, violated: assigning a character to a shared string throws in debug builds. -/
theorem arena_assign_char_violated : ∃ a s, Reach (arenaCfg true) a s ∧ a 0 = some (List.replicate 300 97) ∧
    ((Op.assignChar 0 98).run (arenaCfg true) s).1 = .error (.throw "logic_error") := by
  obtain ⟨a, h, e, _⟩ := reached (arenaCfg_ok true) (v := 0) (xs := List.replicate 300 97)
    (ops := [.makeFill 0 1 300 97, .copy 1 0]) (by decide +kernel) (by decide +kernel)
  exact ⟨a, _, h, e, by decide +kernel⟩

-- strings on an arena: the program of the other examples
example : ((specAll true [.makeFill 0 1 300 97, .copy 1 0, .setAt 0 7 98, .destroy 0, .pushBack 1 99] fun _ => none).bind (· 1) =
      some (List.replicate 300 97 ++ [99])) ∧
    (runAll (arenaCfg true) [.makeFill 0 1 300 97, .copy 1 0, .setAt 0 7 98, .destroy 0, .pushBack 1 99] St.init).1 = .ok () := by
  decide +kernel

end Verif.Str

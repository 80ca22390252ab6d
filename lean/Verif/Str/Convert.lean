import Verif.Str.StayProps

/-!
C143: conversions to `std::string_view` and `std::string`, and formatted output.
-/

namespace Verif.Str

open M

variable {cfg : Cfg} {a a' : Abs} {s s' : St} {xs ys : List Ch} {P : Ptr} {v n : Nat}

/-! ### Model -/

/-- `operator std::basic_string_view`, string.hpp:1219. -/
def view (cfg : Cfg) (v : Obj) : M (Ptr × Nat) := do
  let p ← dataPtr v
  let n ← size cfg v
  pure (p, n)

/-- `toStdString()`, string.hpp:1156-1158, and the functions `toStdString`, string.hpp:2671-2672, arena_string.hpp:859-861,
which go by way of the view: the characters the new `std::string` is given.  Simplification: `std::string` always gets its memory. -/
def toStd (cfg : Cfg) (v : Obj) : M (List Cell) := do
  let (p, n) ← view cfg v
  readCells p n

/-- `fmt::formatter<string>::format`, string.hpp:2758-2767, `fmt::formatter<arena_string>::format`, arena_string.hpp:867-874: `noexcept`,
and otherwise what `fmt` does with a view.  `F` is `fmt::formatter<string_view>::format` with the width, the precision and so on that were
parsed and the place to write to: the text, or an exception. -/
def format (F : List Cell → Except String (List Ch)) (cfg : Cfg) (v : Obj) : M (List Ch) :=
  noexcept do
    let p ← dataPtr v
    let n ← size cfg v
    let cs ← readCells p n
    match F cs with
    | .ok out => pure out
    | .error w => raise w

/-! ### Lemmas -/

/-- What can be read in one piece can be read in parts. -/
theorem read_part {p : Ptr} {k i m : Nat} {cs : List Cell} (h : readCells p k s = (.ok cs, s)) (hi : i + m ≤ k) :
    readCells (p.add i) m s = (.ok ((cs.drop i).take m), s) := by
  have key : ∀ {β : Type} (l : List β) (j : Nat), ((l.drop (j + i)).take m) = (((l.drop j).take k).drop i).take m := by
    intro β l j
    rw [List.drop_take, List.take_take, List.drop_drop, Nat.min_eq_left (by omega)]
  cases p with
  | ext mem j =>
    simp only [readCells, Ptr.add] at h ⊢
    split at h
    · cases h
      rw [if_pos (by omega)]
      simp only [← List.map_drop, ← List.map_take]
      rw [key]
    · cases h
  | blk b j =>
    simp only [readCells, Ptr.add] at h ⊢
    split at h
    · split at h
      · cases h
        rw [if_pos (by omega), key]
      · cases h
    · cases h
  | inl o j =>
    simp only [readCells, Ptr.add] at h ⊢
    split at h
    · split at h
      · cases h
        rw [if_pos (by omega), key]
      · cases h
    · cases h

/-- Reading the characters of a string. -/
theorem read_contents {p : Ptr} {i m : Nat} (h : readCells p (xs.length + 1) s = (.ok (xs.map some ++ [some 0]), s)) (hi : i + m ≤ xs.length) :
    readCells (p.add i) m s = (.ok (((xs.drop i).take m).map some), s) := by
  rw [read_part h (by omega), List.drop_append_of_le_length (by simp; omega), List.take_append_of_le_length (by simp; omega),
    ← List.map_drop, ← List.map_take]

theorem read_all {p : Ptr} (h : readCells p (xs.length + 1) s = (.ok (xs.map some ++ [some 0]), s)) :
    readCells p xs.length s = (.ok (xs.map some), s) := by
  have := read_contents (i := 0) h (Nat.le_of_eq (Nat.zero_add _))
  have e : p.add 0 = p := by cases p <;> rfl
  rwa [e, List.drop_zero, List.take_length] at this

/-! ### C143 -/

/-- C143: the view of a string has its length, and gives its characters as long as only const functions are called on the string. -/
theorem view_spec (hc : cfg.Ok) (h : Reach cfg a s) (hv : a v = some xs) :
    ∃ P, view cfg (.user v) s = (.ok (P, xs.length), s) ∧
      ∀ a' s', Later cfg v a s a' s' → ∀ i m, i + m ≤ xs.length →
        readCells (P.add i) m s' = (.ok (((xs.drop i).take m).map some), s') := by
  obtain ⟨hsz, _, p, hp, _⟩ := storage_ok hc h hv
  refine ⟨p, by unfold view; rw [bind_ok hp, bind_ok hsz]; rfl, fun a' s' hl i m hi => ?_⟩
  exact read_contents (pointers_stay hc h hv hp hl).2 hi

set_option maxRecDepth 4000 in
-- the view of a string of 300 characters, of which a copy is made and changed
example : ∃ a s a' s', Reach (heapCfg false) a s ∧ a 0 = some (List.replicate 300 97) ∧ Later (heapCfg false) 0 a s a' s' ∧
    a' 1 = some (List.replicate 300 97 ++ [98]) ∧ (view (heapCfg false) (.user 0) s).1 = .ok (.blk 0 0, 300) := by
  obtain ⟨a, h, ha, hs⟩ := reached (heapCfg_ok false) (ops := [.makeFill 0 0 300 97]) (v := 0) (xs := List.replicate 300 97)
    (by decide +kernel) (by decide +kernel)
  have e : a = upd (fun _ => none) 0 (some (List.replicate 300 97)) := by
    have : specAll false [.makeFill 0 0 300 97] (fun _ => none) = some (upd (fun _ => none) 0 (some (List.replicate 300 97))) := rfl
    rw [show specAll false [.makeFill 0 0 300 97] (fun _ => none) = some a from hs] at this
    exact Option.some.inj this
  subst e
  obtain ⟨s1, r1⟩ : ∃ s1, (Op.copy 1 0).run (heapCfg false) (runOk (heapCfg false) [.makeFill 0 0 300 97] St.init).2 = (.ok (), s1) :=
    ⟨_, Prod.ext (by decide +kernel) rfl⟩
  have r2' : (((Op.copy 1 0).run (heapCfg false) >>= fun _ => (Op.pushBack 1 98).run (heapCfg false))
      (runOk (heapCfg false) [.makeFill 0 0 300 97] St.init).2).1 = .ok () := by decide +kernel
  rw [bind_ok r1] at r2'
  have r2 : (Op.pushBack 1 98).run (heapCfg false) s1 = (.ok (), ((Op.pushBack 1 98).run (heapCfg false) s1).2) := Prod.ext r2' rfl
  exact ⟨_, _, _, _, h, ha, .done (.done .start rfl rfl r1) rfl rfl r2, rfl, by decide +kernel⟩

/-- C143: converting to `std::string` gives all the characters, NUL too, and changes nothing. -/
theorem to_std_spec (hc : cfg.Ok) (h : Reach cfg a s) (hv : a v = some xs) :
    toStd cfg (.user v) s = (.ok (xs.map some), s) := by
  obtain ⟨hsz, _, p, hp, hrd⟩ := storage_ok hc h hv
  unfold toStd view
  rw [bind_ok (show (do let p ← dataPtr (.user v); let n ← size cfg (.user v); pure (p, n) : M (Ptr × Nat)) s = (.ok (p, xs.length), s) by
    rw [bind_ok hp, bind_ok hsz]; rfl)]
  exact read_all hrd

/-- C143: a string made from a `std::string` or a view and converted back gives the same characters. -/
theorem std_round_trip {al : Nat} (hc : cfg.Ok) (h : Reach cfg a s) (hv : a v = none) (hal : cfg.arena = (al != 0))
    (hl : xs.length < M64) (hr : (Op.make v al (.lit xs)).run cfg s = (.ok (), s')) : toStd cfg (.user v) s' = (.ok (xs.map some), s') := by
  refine to_std_spec hc (h.done (a' := upd a v (some xs)) (op := .make v al (.lit xs)) ?_ hr) (upd_same _ _ _)
  simp [Op.spec, Src.chars, hal, Abs.make, hv, show xs.length < 18446744073709551616 from hl]

-- characters of value 0 among others, on an arena
example : (Op.make 0 1 (.lit [97, 0, 99])).run (arenaCfg true) St.init =
      (.ok (), ((Op.make 0 1 (.lit [97, 0, 99])).run (arenaCfg true) St.init).2) ∧
    (toStd (arenaCfg true) (.user 0) ((Op.make 0 1 (.lit [97, 0, 99])).run (arenaCfg true) St.init).2).1 = .ok [some 97, some 0, some 99] :=
  ⟨Prod.ext (by decide +kernel) rfl, by decide +kernel⟩

theorem format_run {F : List Cell → Except String (List Ch)} (hc : cfg.Ok) (h : Reach cfg a s) (hv : a v = some xs) :
    format F cfg (.user v) s = noexcept (match F (xs.map some) with | .ok out => pure out | .error w => raise w) s := by
  obtain ⟨hsz, _, p, hp, hrd⟩ := storage_ok hc h hv
  unfold format noexcept
  rw [bind_ok hp, bind_ok hsz, bind_ok (read_all hrd)]

/-- C143: formatting gives what `fmt` makes of the characters. -/
theorem format_partial {F : List Cell → Except String (List Ch)} {out : List Ch} (hc : cfg.Ok) (h : Reach cfg a s) (hv : a v = some xs)
    (hF : F (xs.map some) = .ok out) : format F cfg (.user v) s = (.ok out, s) := by
  rw [format_run hc h hv, hF]
  rfl

/-- C143 violated: if `fmt` reports an error the program ends, instead of the exception reaching the caller as it does for `std::string`. -/
theorem format_violated {F : List Cell → Except String (List Ch)} {w : String} (hc : cfg.Ok) (h : Reach cfg a s) (hv : a v = some xs)
    (hF : F (xs.map some) = .error w) : format F cfg (.user v) s = (.error (.throw "terminate"), s) := by
  rw [format_run hc h hv, hF]
  rfl

-- written to a buffer with room for ten characters
example : let F := fun cs : List Cell => if cs.length ≤ 10 then .ok (cs.filterMap id) else .error "bad_alloc"
    let s := (runOk (heapCfg false) [.makeFill 0 0 5 97, .makeFill 1 0 30 97] St.init).2
    (format F (heapCfg false) (.user 0) s).1 = .ok (List.replicate 5 97) ∧
    (format F (heapCfg false) (.user 1) s).1 = .error (.throw "terminate") := by
  decide +kernel

end Verif.Str

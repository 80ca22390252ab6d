import Verif.Str.Convert

/-!
C144: `arena_string`s that are given no arena.
-/

namespace Verif.Str

open M

variable {cfg : Cfg} {a a' : Abs} {s s' : St} {xs ys : List Ch} {v n : Nat}

/-! ### Model -/

/-- `basic_string()` and `basic_string(const A&)`, both `noexcept`, string.hpp:1097-1099; `al` is 0 for the first. -/
def ctorDefault (cfg : Cfg) (v : Obj) (al : Nat) : M Unit := noexcept (ctorEmpty cfg v al)

/-- `basic_string(const std::basic_string&)`, string.hpp:1107-1108.  The core of an `arena_string` is made by
`arena_string_core(const Char*, size_t)`, arena_string.hpp:93-96, which calls another constructor, for the default resource, and throws.
As that constructor has returned, the object exists and the destructor runs when the exception leaves. -/
def ctorStd (cfg : Cfg) (v : Obj) (p : Ptr) (n : Nat) : M Unit :=
  if cfg.arena then do
    ctorData cfg v 0 p n
    destroy cfg v
    raise "logic_error"
  else ctorData cfg v 0 p n

namespace NoArena

/-! ### Lemmas -/

/-- What making and destroying a string may leave different: the number of requests made, and whether one was refused. -/
structure Undone (s s' : St) : Prop where
  heap : s'.heap = s.heap
  vars : s'.vars = s.vars
  next : s.next ≤ s'.next
  lost : s'.lost = s.lost

/-- What the constructor can leave: a refused request, characters in the object, or a new block. -/
inductive Left (cfg : Cfg) (v : Obj) (n : Nat) (s : St) : Except Fault Unit × St → Prop
  | refused (e : String) (nx : Nat) : (e = "bad_alloc" ∨ e = "length_error") → s.next ≤ nx →
      Left cfg v n s (.error (.throw e), ⟨s.heap, nx, s.vars, true, s.lost⟩)
  | small (cells : List Cell) : (Core.small cells).size? cfg = some n →
      Left cfg v n s (.ok (), ⟨s.heap, s.next, upd s.vars v (some ⟨.small cells, 0⟩), s.refused, s.lost⟩)
  | block (l : Bool) (cap : Nat) (cells : List Cell) :
      Left cfg v n s (.ok (), ⟨upd s.heap s.next (some ⟨if l then some 1 else none, 0, cells⟩), s.next + 1,
        upd s.vars v (some ⟨.ml s.next n cap l, 0⟩), s.refused, s.lost⟩)

variable {o : Obj} {l0 : List Cell}

/-- The end of making a string in a new block. -/
theorem fill_new {l : Bool} {cap : Nat} (hv : s.vars o = some ⟨.small l0, 0⟩) (hn : s.heap s.next = none) :
    Left cfg o xs.length s ((do
      doIf (xs.length != 0) (podCopy cfg (.ext xs 0) xs.length (.blk s.next 0))
      setCore o (.ml s.next xs.length cap l)
      writeCells (.blk s.next xs.length) [some 0] : M Unit)
      ⟨upd s.heap s.next (some ⟨if l then some 1 else none, 0, List.replicate (xs.length + 1) none⟩), s.next + 1, s.vars, s.refused, s.lost⟩) := by
  have hr : readCells (.ext xs 0) xs.length s = (.ok (xs.map some), s) := by simp [readCells]
  have h1 : ∃ cells : List Cell, cells.length = xs.length + 1 ∧ doIf (xs.length != 0) (podCopy cfg (.ext xs 0) xs.length (.blk s.next 0))
      ⟨upd s.heap s.next (some ⟨if l then some 1 else none, 0, List.replicate (xs.length + 1) none⟩), s.next + 1, s.vars, s.refused, s.lost⟩ =
      (.ok (), ⟨upd s.heap s.next (some ⟨if l then some 1 else none, 0, cells⟩), s.next + 1, s.vars, s.refused, s.lost⟩) := by
    by_cases h0 : xs.length = 0
    · exact ⟨List.replicate (xs.length + 1) none, by simp, by
        have : (xs.length != 0) = false := by simp [h0]
        rw [this]; rfl⟩
    · refine ⟨_, (put_new (m := xs.length + 1) (cs := xs.map some) (by simp)).1, ?_⟩
      have : (xs.length != 0) = true := by simpa using h0
      rw [doIf, if_pos this, podCopy_new hr hn (by omega)]
  obtain ⟨cells, hl, h1⟩ := h1
  rw [bind_ok h1]
  have h2 : setCore o (.ml s.next xs.length cap l) ⟨upd s.heap s.next (some ⟨if l then some 1 else none, 0, cells⟩), s.next + 1, s.vars,
      s.refused, s.lost⟩ = (.ok (), ⟨upd s.heap s.next (some ⟨if l then some 1 else none, 0, cells⟩), s.next + 1,
      upd s.vars o (some ⟨.ml s.next xs.length cap l, 0⟩), s.refused, s.lost⟩) := by
    simp only [setCore, hv]
  rw [bind_ok h2]
  simp only [writeCells, upd_same]
  rw [if_pos (by simp [hl])]
  simp only [upd_upd]
  exact .block l cap _

theorem init_left (hc : cfg.Ok) (hd : cfg.dbg = false) (hv : s.vars o = some ⟨.small l0, 0⟩) (h0 : l0.length = cfg.ms + 1)
    (hn : s.heap s.next = none) : Left cfg o xs.length s (initData cfg o 0 (.ext xs 0) xs.length s) := by
  unfold initData
  split
  · next h =>
    have hm : xs.length ≤ cfg.ms := by simpa using (Bool.and_eq_true_iff.1 h).2
    have h1 : ∃ cells : List Cell, cells.length = cfg.ms + 1 ∧ doIf (xs.length != 0) (podCopy cfg (.ext xs 0) xs.length (.inl o 0)) s =
        (.ok (), ⟨s.heap, s.next, upd s.vars o (some ⟨.small cells, 0⟩), s.refused, s.lost⟩) := by
      by_cases hz : xs.length = 0
      · exact ⟨l0, h0, by rw [upd_self hv]; simp only [hz]; rfl⟩
      · refine ⟨put l0 0 (xs.map some), by rw [put_length (by simp; omega)]; exact h0, ?_⟩
        have : (xs.length != 0) = true := by simpa using hz
        rw [doIf, if_pos this]
        simp [podCopy, Ptr.same, readCells, writeCells, bind_apply, hv, show xs.length ≤ l0.length by omega]
    obtain ⟨cells, hl, h1⟩ := h1
    unfold initSmall
    rw [bind_ok h1]
    unfold setSmallSize
    rw [bind_ok (assert_ok (by simpa using hm) _), bind_ok (getOb_ok (upd_same _ _ _))]
    simp only
    rw [if_pos hm, setCore_ok (upd_same _ _ _)]
    simp only [upd_upd]
    refine .small _ ?_
    have e : ((cells.set cfg.ms (some (cfg.ms - xs.length))).set xs.length (some 0))[cfg.ms]? = some (some (cfg.ms - xs.length)) := by
      by_cases he : xs.length = cfg.ms
      · simp [he, hl]
      · rw [List.getElem?_set_ne he]
        simp [hl]
    exact smallSize_eq hm e
  · split
    · next hm =>
      have hw := hc.w
      have hm2 : xs.length ≤ 254 := Nat.le_trans hm (Nat.div_le_self _ _)
      have hb : mul64 (add64 1 xs.length) cfg.w = (xs.length + 1) * cfg.w := by
        unfold mul64 add64
        have : (1 + xs.length) % M64 = xs.length + 1 := by rw [Nat.mod_eq_of_lt (by omega)]; omega
        rw [this]
        refine Nat.mod_eq_of_lt ?_
        rcases hw with h | h | h <;> rw [h] <;> omega
      have hq : (xs.length + 1) * cfg.w / cfg.w = xs.length + 1 := Nat.mul_div_cancel _ hc.wpos
      unfold initMedium
      simp only [hb]
      by_cases ha : cfg.malloc s.next ((xs.length + 1) * cfg.w) = true
      · have e : alloc cfg 0 false ((xs.length + 1) * cfg.w) s = (.ok s.next, ⟨upd s.heap s.next (some ⟨none, 0,
            List.replicate (xs.length + 1) none⟩), s.next + 1, s.vars, s.refused, s.lost⟩) := by
          simp [alloc, hd, ha, hdrBytes, hq]
        rw [bind_ok e]
        exact fill_new (l := false) hv hn
      · have e : alloc cfg 0 false ((xs.length + 1) * cfg.w) s = (.error (.throw "bad_alloc"), ⟨s.heap, s.next + 1, s.vars, true, s.lost⟩) := by
          simp [alloc, hd, ha]
        rw [bind_apply, e]
        exact .refused _ _ (Or.inl rfl) (by omega)
    · unfold initLarge
      have hcr : (∃ e nx, (e = "bad_alloc" ∨ e = "length_error") ∧ s.next ≤ nx ∧
            create cfg 0 xs.length s = (.error (.throw e), ⟨s.heap, nx, s.vars, true, s.lost⟩)) ∨
          create cfg 0 xs.length s = (.ok (s.next, xs.length), ⟨upd s.heap s.next (some ⟨some 1, 0, List.replicate (xs.length + 1) none⟩),
            s.next + 1, s.vars, s.refused, s.lost⟩) := by
        have hlen : (lengthError : M Nat) s = (.error (.throw "length_error"), ⟨s.heap, s.next, s.vars, true, s.lost⟩) := rfl
        have hq : (xs.length + 1) * cfg.w / cfg.w = xs.length + 1 := Nat.mul_div_cancel _ hc.wpos
        unfold create largeBytes
        split
        · split
          · rw [bind_ok (pure_apply _ _), bind_apply]
            by_cases ha : cfg.malloc s.next ((xs.length + 1) * cfg.w + 8) = true
            · refine Or.inr ?_
              simp [alloc, hd, ha, hdrBytes, hq]
            · refine Or.inl ⟨_, s.next + 1, Or.inl rfl, by omega, ?_⟩
              simp [alloc, hd, ha]
          · exact Or.inl ⟨_, s.next, Or.inr rfl, Nat.le_refl _, by rw [bind_apply, hlen]⟩
        · exact Or.inl ⟨_, s.next, Or.inr rfl, Nat.le_refl _, by rw [bind_apply, hlen]⟩
      rcases hcr with ⟨e, nx, he, hx, hcr⟩ | hcr
      · rw [bind_apply, hcr]
        exact .refused _ _ he hx
      · rw [bind_ok hcr]
        exact fill_new (l := true) hv hn

/-- A `std::string` given to an `arena_string` in a release build. -/
theorem std_release (hc : cfg.Ok) (ha : cfg.arena = true) (hd : cfg.dbg = false) (hv : s.vars o = none) (hn : s.heap s.next = none) :
    ∃ e s', (e = "logic_error" ∨ e = "bad_alloc" ∨ e = "length_error") ∧ ctorStd cfg o (.ext xs 0) xs.length s = (.error (.throw e), s') ∧
      Undone s s' := by
  have h1 : newOb cfg o 0 s = (.ok (), ⟨s.heap, s.next, upd s.vars o (some ⟨.small (List.replicate (cfg.ms + 1) (some 0)), 0⟩),
      s.refused, s.lost⟩) := by
    simp [newOb, hv, hd]
  have h2 := init_left (xs := xs) (s := ⟨s.heap, s.next, upd s.vars o (some ⟨.small (List.replicate (cfg.ms + 1) (some 0)), 0⟩),
      s.refused, s.lost⟩) hc hd (upd_same _ _ _) (by simp) hn
  unfold ctorStd ctorData construct
  rw [if_pos ha, bind_apply, bind_ok h1]
  unfold constructing
  rw [bind_apply]
  generalize hr : initData cfg o 0 (.ext xs 0) xs.length _ = r at h2 ⊢
  cases h2 with
  | refused e nx he hx =>
    exact ⟨e, _, Or.inr he, rfl, rfl, by simp [upd_self hv], hx, rfl⟩
  | small cells hs =>
    have hk : ∀ x : St, x.vars o = some ⟨.small cells, 0⟩ → initCheck cfg o (.ext xs 0) xs.length x = (.ok (), x) := by
      intro x hx
      have : size cfg o x = (.ok xs.length, x) := by
        unfold size; rw [bind_ok (getOb_ok hx)]; simp only [hs]; rfl
      unfold initCheck
      rw [bind_ok this, bind_ok (assert_ok (by simp) _)]
      simp [hd]
    simp only
    rw [hk _ (by simp)]
    have hdz : destroy cfg o ⟨s.heap, s.next, upd (upd s.vars o (some ⟨.small (List.replicate (cfg.ms + 1) (some 0)), 0⟩)) o
        (some ⟨.small cells, 0⟩), s.refused, s.lost⟩ = (.ok (), s) := by
      unfold destroy release
      rw [bind_apply, bind_ok (getOb_ok (upd_same _ _ _))]
      simp [dropOb, upd_self hv]
    simp only
    rw [bind_ok hdz]
    exact ⟨_, s, Or.inl rfl, rfl, rfl, rfl, Nat.le_refl _, rfl⟩
  | block l cap cells =>
    have hk : ∀ x : St, x.vars o = some ⟨.ml s.next xs.length cap l, 0⟩ → initCheck cfg o (.ext xs 0) xs.length x = (.ok (), x) := by
      intro x hx
      have : size cfg o x = (.ok xs.length, x) := by
        unfold size; rw [bind_ok (getOb_ok hx)]; rfl
      unfold initCheck
      rw [bind_ok this, bind_ok (assert_ok (by simp) _)]
      simp [hd]
    simp only
    rw [hk _ (by simp)]
    have hdz : destroy cfg o ⟨upd s.heap s.next (some ⟨if l then some 1 else none, 0, cells⟩), s.next + 1,
        upd (upd s.vars o (some ⟨.small (List.replicate (cfg.ms + 1) (some 0)), 0⟩)) o
        (some ⟨.ml s.next xs.length cap l, 0⟩), s.refused, s.lost⟩ = (.ok (), ⟨s.heap, s.next + 1, s.vars, s.refused, s.lost⟩) := by
      unfold destroy release
      rw [bind_apply, bind_ok (getOb_ok (upd_same _ _ _))]
      cases l
      · simp [dropOb, dealloc, upd_self hv, upd_self hn]
      · simp [dropOb, dealloc, decrementRefs, refs, setRefs, bind_apply, assert, hd, doIf, upd_self hv, upd_self hn]
    simp only
    rw [bind_ok hdz]
    exact ⟨_, _, Or.inl rfl, rfl, rfl, rfl, Nat.le_succ _, rfl⟩

/-- Making an empty string. -/
theorem empty_run {al : Nat} (hv : s.vars o = none) (hg : (cfg.arena && cfg.dbg && al == 0) = false) :
    ∃ s', ctorEmpty cfg o al s = (.ok (), s') ∧ s'.heap = s.heap ∧ ∃ c, s'.vars o = some ⟨c, al⟩ := by
  have h1 : newOb cfg o al s = (.ok (), ⟨s.heap, s.next, upd s.vars o (some ⟨.small (List.replicate (cfg.ms + 1) (some 0)), al⟩),
      s.refused, s.lost⟩) := by
    simp only [newOb, hv, hg, Bool.false_eq_true, if_false]
  unfold ctorEmpty construct
  rw [bind_ok h1]
  unfold constructing initEmpty setSmallSize
  rw [bind_ok (assert_ok (by simp) _), bind_ok (getOb_ok (upd_same _ _ _))]
  simp only
  rw [if_pos (Nat.zero_le _), setCore_ok (upd_same _ _ _)]
  exact ⟨_, rfl, rfl, _, upd_same _ _ _⟩

end NoArena

open NoArena

/-! ### C144 -/

/-- C144: an `arena_string` cannot be made from a `std::string` alone: in every build an exception is thrown, nothing has been made or kept,
and all strings there are hold what they held. -/
theorem std_refused (hc : cfg.Ok) (h : Reach cfg a s) (ha : cfg.arena = true) (hv : a v = none) :
    ∃ e s', (e = "logic_error" ∨ e = "bad_alloc" ∨ e = "length_error") ∧
      ctorStd cfg (.user v) (.ext xs 0) xs.length s = (.error (.throw e), s') ∧ s'.heap = s.heap ∧ s'.vars = s.vars ∧ Rel cfg a s' := by
  have hR := (reach_rel hc h).1
  have hv' := hR.absent v hv
  cases hd : cfg.dbg with
  | true =>
    refine ⟨_, s, Or.inl rfl, ?_, rfl, rfl, hR⟩
    simp [ctorStd, ha, ctorData, construct, newOb, hv', hd, bind_apply]
  | false =>
    obtain ⟨e, s', he, hr, hu⟩ := std_release (xs := xs) hc ha hd hv' (hR.inv.fresh _ (Nat.le_refl _))
    refine ⟨e, s', he, hr, hu.heap, hu.vars, ?_⟩
    have e' : s' = ⟨s.heap, s'.next, s.vars, s'.refused, s'.lost⟩ := by
      rw [← hu.heap, ← hu.vars]
    rw [e']
    obtain ⟨w1, f1⟩ := hR.inv.count s'.next hu.next s'.refused s'.lost
    exact ⟨w1, fun i hi => hR.absent i hi, fun i ys hi => (f1 fun _ => False).raw not_false (hR.held i ys hi), hR.tmps⟩

-- a string of 300 characters is there, and others are not made from a few characters and from 300
example : ∃ a s, Reach (arenaCfg false) a s ∧ a 0 = some (List.replicate 300 97) ∧ a 1 = none ∧
    (ctorStd (arenaCfg false) (.user 1) (.ext [98, 99] 0) 2 s).1 = .error (.throw "logic_error") ∧
    (ctorStd (arenaCfg false) (.user 1) (.ext (List.replicate 300 97) 0) 300 s).1 = .error (.throw "logic_error") ∧
    (ctorStd (arenaCfg false) (.user 1) (.ext (List.replicate 300 97) 0) 300 s).2.next = s.next + 1 := by
  obtain ⟨a, h, ha, hs⟩ := reached (arenaCfg_ok false) (ops := [.makeFill 0 1 300 97]) (v := 0) (xs := List.replicate 300 97)
    (by decide +kernel) (by decide +kernel)
  have e : a = upd (fun _ => none) 0 (some (List.replicate 300 97)) := by
    have : specAll true [.makeFill 0 1 300 97] (fun _ => none) = some (upd (fun _ => none) 0 (some (List.replicate 300 97))) := rfl
    rw [show specAll true [.makeFill 0 1 300 97] (fun _ => none) = some a from hs] at this
    exact Option.some.inj this
  subst e
  exact ⟨_, _, h, ha, rfl, by decide +kernel, by decide +kernel, by decide +kernel⟩

/-- C144: a `std::string` makes a heap string, which holds its characters. -/
theorem std_accepted (h : Reach cfg a s) (ha : cfg.arena = false) (hv : a v = none) (hl : xs.length < M64)
    (hr : ctorStd cfg (.user v) (.ext xs 0) xs.length s = (.ok (), s')) : Reach cfg (upd a v (some xs)) s' := by
  have : (Op.make v 0 (.lit xs)).run cfg s = (.ok (), s') := by
    rw [← hr]
    simp [Op.run, Src.resolve, ctorStd, ha, bind_apply]
  refine h.done (op := .make v 0 (.lit xs)) ?_ this
  simp [Op.spec, Src.chars, ha, Abs.make, hv, show xs.length < 18446744073709551616 from hl]

-- thirty characters
example : (ctorStd (heapCfg true) (.user 0) (.ext (List.replicate 30 97) 0) 30 St.init).1 = .ok () := by decide +kernel

/-- C144: a debug build refuses to make an `arena_string` from an allocator that belongs to no arena, and nothing has changed. -/
theorem no_arena_partial {src : Src} {pn : Ptr × Nat} {c : Ch} (hc : cfg.Ok) (h : Reach cfg a s) (ha : cfg.arena = true)
    (hd : cfg.dbg = true) (hv : a v = none) (hs : src.resolve s = (.ok pn, s)) :
    ctorEmpty cfg (.user v) 0 s = (.error (.throw "logic_error"), s) ∧
    (Op.make v 0 src).run cfg s = (.error (.throw "logic_error"), s) ∧
    (Op.makeFill v 0 n c).run cfg s = (.error (.throw "logic_error"), s) := by
  have hv' := (reach_rel hc h).1.absent v hv
  have hn : ∀ body, construct cfg (.user v) 0 body s = (.error (.throw "logic_error"), s) := fun body => by
    simp [construct, newOb, hv', ha, hd, bind_apply]
  refine ⟨hn _, ?_, hn _⟩
  show (src.resolve >>= _) s = _
  rw [bind_ok hs]
  exact hn _

-- thirty characters of another string, which is on an arena
example : ∃ a s pn, Reach (arenaCfg true) a s ∧ a 0 = some (List.replicate 40 97) ∧ (Src.sub 0 5 30).resolve s = (.ok pn, s) ∧
    ((Op.make 1 0 (.sub 0 5 30)).run (arenaCfg true) s).1 = .error (.throw "logic_error") ∧
    ((Op.make 1 1 (.sub 0 5 30)).run (arenaCfg true) s).1 = .ok () := by
  obtain ⟨a, h, ha, _⟩ := reached (arenaCfg_ok true) (ops := [.makeFill 0 1 40 97]) (v := 0) (xs := List.replicate 40 97)
    (by decide +kernel) (by decide +kernel)
  exact ⟨a, _, (.blk 0 5, 30), h, ha, rfl, by decide +kernel, by decide +kernel⟩

/-- C144: the default constructor, given an arena or of a heap string, never fails. -/
theorem default_ctor_partial {al : Nat} (hc : cfg.Ok) (h : Reach cfg a s) (hv : a v = none) (hal : cfg.arena = (al != 0)) :
    ∃ s', ctorDefault cfg (.user v) al s = (.ok (), s') ∧ Reach cfg (upd a v (some [])) s' := by
  have hv' := (reach_rel hc h).1.absent v hv
  obtain ⟨s', hr, _⟩ := empty_run (cfg := cfg) (al := al) hv' (by rw [hal]; by_cases h : al = 0 <;> simp [h])
  refine ⟨s', by simp [ctorDefault, noexcept, hr], h.done (op := .makeEmpty v al) ?_ hr⟩
  simp [Op.spec, hal, Abs.make, hv]

/-- C144 violated: in a debug build, the default constructor without an arena ends the program, as it is `noexcept`: the exception cannot
be caught. -/
theorem default_ctor_violated (hc : cfg.Ok) (h : Reach cfg a s) (ha : cfg.arena = true) (hd : cfg.dbg = true) (hv : a v = none) :
    ctorDefault cfg (.user v) 0 s = (.error (.throw "terminate"), s) := by
  have hv' := (reach_rel hc h).1.absent v hv
  simp [ctorDefault, ctorEmpty, noexcept, construct, newOb, hv', ha, hd, bind_apply]

/-- C144 violated: in a release build the string is made, and will take its memory from the default resource. -/
theorem no_arena_violated (hc : cfg.Ok) (h : Reach cfg a s) (hd : cfg.dbg = false) (hv : a v = none) :
    ∃ s', ctorDefault cfg (.user v) 0 s = (.ok (), s') ∧ ∃ c, s'.vars (.user v) = some ⟨c, 0⟩ := by
  have hv' := (reach_rel hc h).1.absent v hv
  obtain ⟨s', hr, _, h2⟩ := empty_run (cfg := cfg) (al := 0) hv' (by simp [hd])
  exact ⟨s', by simp [ctorDefault, noexcept, hr], h2⟩

-- such a string, and the block from the default resource it takes when 300 characters are put into it
example : Reach (arenaCfg false) (fun _ => none) St.init ∧
    (((ctorDefault (arenaCfg false) (.user 0) 0 >>= fun _ => (Op.append 0 (.lit (List.replicate 300 97))).run (arenaCfg false)) St.init).2.heap 0).map
      (·.src) = some 0 :=
  ⟨.start, by decide +kernel⟩

end Verif.Str

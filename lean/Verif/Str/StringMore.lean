import Verif.Str.StringProps
import Verif.Str.Growth
import Verif.Str.Views

/-!
More properties of the strings: what a failed operation leaves, growth, lengths that cannot be
represented, views and concatenation, hashes.
-/

namespace Verif.Str

open M

variable {cfg : Cfg} {s s' : St} {a a' : Abs} {op : Op} {u v : Nat} {xs ys : List Ch}

/-! ### C83: failures -/

/-- C83: an operation that fails for want of memory leaves the contents of all strings as they were
(of all others than its own for assignments and `replace`), unless a `realloc` was refused. -/
theorem failure_changes_nothing {e : Fault} (hc : cfg.Ok) (h : Reach cfg a s) (ho : op.spec cfg.arena a = some (.done a'))
    (hr : op.run cfg s = (.error e, s')) (hl : s'.lost = false) (hv : a v = some xs) (hw : op.weak ≠ some v) :
    contents cfg v s' = (.ok xs, s') := by
  have h1 := step_refines hc (reach_rel hc h).1 ho
  simp only [Refines, Tri] at h1
  rw [hr] at h1
  rcases h1 with h1 | ⟨_, _, a2, h2, h3, _⟩
  · rw [hl] at h1; simp at h1
  · exact contents_ok h2.inv (h2.held v xs ((h3 v hw).trans hv))

/-- As `heapCfg`, but request number `k` is refused. -/
def refusing (dbg : Bool) (k : Nat) : Cfg := ⟨1, dbg, false, fun i n => decide (n < 4611686018427387904) && i != k⟩

theorem refusing_ok (dbg : Bool) (k : Nat) : (refusing dbg k).Ok := ⟨Or.inl rfl, fun _ n h => by simp [refusing]; omega⟩

-- `append` of 100 characters to a short string is refused
example : (runOk (refusing false 0) [.make 0 0 (.lit [97, 98])] St.init).1 = .ok () ∧
    (runOk (refusing false 0) [.make 0 0 (.lit [97, 98]), .append 0 (.lit (List.replicate 100 99))] St.init).1 = .error (.throw "bad_alloc") ∧
    (runOk (refusing false 0) [.make 0 0 (.lit [97, 98]), .append 0 (.lit (List.replicate 100 99))] St.init).2.lost = false := by
  decide +kernel

/-- C81: after a failed operation every string can still be read, and destroyed.  Missing: failures by a refused
`realloc`, after which this is false (`realloc_refused_violated`). -/
theorem failure_keeps_string_partial {e : Fault} (hc : cfg.Ok) (h : Reach cfg a s) (ho : op.spec cfg.arena a = some (.done a'))
    (hr : op.run cfg s = (.error e, s')) (hl : s'.lost = false) (hv : a v = some xs) :
    (∃ zs, contents cfg v s' = (.ok zs, s')) ∧ ∃ s2, (Op.destroy v).run cfg s' = (.ok (), s2) := by
  have h1 := step_refines hc (reach_rel hc h).1 ho
  simp only [Refines, Tri] at h1
  rw [hr] at h1
  rcases h1 with h1 | ⟨_, _, a2, h2, _, h4, _⟩
  · rw [hl] at h1; simp at h1
  · have := h4 v
    rw [hv] at this
    obtain ⟨zs, hz⟩ := Option.isSome_iff_exists.1 this
    have hh := h2.held v zs hz
    obtain ⟨ob, l, n, g, _⟩ := h2.held v zs hz
    obtain ⟨s2, hd, _⟩ := destroy_ok h2.inv g.var
    exact ⟨⟨zs, contents_ok h2.inv hh⟩, s2, hd⟩

/-- C83: the string of a failed assignment or `replace` is still a string. -/
theorem failure_keeps_string {e : Fault} (hc : cfg.Ok) (h : Reach cfg a s) (ho : op.spec cfg.arena a = some (.done a'))
    (hr : op.run cfg s = (.error e, s')) (hl : s'.lost = false) (hv : a v = some xs) :
    ∃ zs, contents cfg v s' = (.ok zs, s') := (failure_keeps_string_partial hc h ho hr hl hv).1

-- `assign` of 100 characters: the old ones are gone
example : (runOk (refusing false 0) [.make 0 0 (.lit [97, 98]), .assign 0 (.lit (List.replicate 100 99))] St.init).1 = .error (.throw "bad_alloc") ∧
    (contents (refusing false 0) 0
      (runOk (refusing false 0) [.make 0 0 (.lit [97, 98]), .assign 0 (.lit (List.replicate 100 99))] St.init).2).1 = .ok [] := by
  decide +kernel

/-! ### C57: growth -/

theorem Reach.holds (hc : cfg.Ok) (h : Reach cfg a s) (hv : a v = some xs) :
    ∃ ob l, Holds cfg s (.user v) ob l xs.length ∧ xs.map some = l.take xs.length := by
  have hr := (reach_rel hc h).1
  obtain ⟨ob, l, n, g, e⟩ := hr.held v xs hv
  obtain ⟨l2, n2, g2, g3, g4, _⟩ := hr.inv.view g.var
  obtain ⟨_, rfl, rfl⟩ := g.unique g2
  have hn : n = xs.length := by
    have := congrArg List.length e
    simp at this; omega
  subst hn
  exact ⟨ob, l, g, e⟩

/-- C57: after `reserve(n)` the capacity is at least `n`. -/
theorem reserve_capacity {n : Nat} (hc : cfg.Ok) (h : Reach cfg a s) (hv : a v = some xs)
    (hr : (Op.reserve v n).run cfg s = (.ok (), s')) : ∃ c, capacity cfg (.user v) s' = (.ok c, s') ∧ n ≤ c := by
  have hrel := (reach_rel hc h).1
  obtain ⟨ob, l, g, _⟩ := h.holds hc hv
  have h1 := reserveCore_tri (n := n) hc hrel.inv g (hrel.tmps 0)
  simp only [Op.run, reserve] at hr
  simp only [Tri, hr] at h1
  obtain ⟨w1, _, ob', l', k', a1, a2, _, a4, _⟩ := h1
  obtain ⟨c, d1, _, _, d4, _⟩ := a1.capM w1
  exact ⟨c, d1, by rw [d4 a2]; exact a4⟩

example : (runOk (heapCfg false) [.make 0 0 (.lit [97, 98]), .reserve 0 1000] St.init).1 = .ok () ∧
    (capacity (heapCfg false) (.user 0) (runOk (heapCfg false) [.make 0 0 (.lit [97, 98]), .reserve 0 1000] St.init).2).1 = .ok 1000 := by
  decide +kernel

/-- C57: `push_back` keeps the storage, or the string was full (or empty) and the new capacity is at
least half as much again. -/
theorem push_back_step {c : Nat} {p : Ptr} {ch : Ch} (hc : cfg.Ok) (h : Reach cfg a s) (hv : a v = some xs)
    (hcap : capacity cfg (.user v) s = (.ok c, s)) (hp : dataPtr (.user v) s = (.ok p, s)) (hx : xs.length + 1 < M64)
    (hr : (Op.pushBack v ch).run cfg s = (.ok (), s')) :
    ∃ c' p', capacity cfg (.user v) s' = (.ok c', s') ∧ dataPtr (.user v) s' = (.ok p', s') ∧
      (p' = p ∧ c ≤ c' ∨ (xs.length = c ∨ xs.length = 0) ∧ 1 + c * 3 / 2 ≤ c') := by
  have hrel := (reach_rel hc h).1
  obtain ⟨ob, l, g, _⟩ := h.holds hc hv
  obtain ⟨c0, d1, d2, d3, _, _⟩ := g.capM hrel.inv
  rw [hcap] at d1; cases d1
  rw [g.dataM] at hp; cases hp
  have h1 := pushBack_core (ch := ch) hc hrel.inv g (hrel.tmps 0) hx hcap
  have ho : (Op.pushBack v ch).spec cfg.arena a = some (.done (upd a v (some (xs ++ [ch])))) := by
    simp [Op.spec, hv, Abs.set, hx]
  have hn := h.done ho hr
  have hrel' := (reach_rel hc hn).1
  obtain ⟨ob2, l2, g2, _⟩ := hn.holds hc (v := v) (upd_same _ _ _)
  simp only [Op.run] at hr
  simp only [Tri, hr] at h1
  obtain ⟨hx', ob', e1, e2⟩ := h1
  have e3 := Option.some.inj (g2.var.symm.trans e1)
  subst e3
  obtain ⟨c', d1', _, _, d4', _⟩ := g2.capM hrel'.inv
  rw [d4' hx'] at d1'
  refine ⟨_, _, d1', g2.dataM, ?_⟩
  rcases e2 with ⟨f1, f2, f3⟩ | ⟨f1, f2⟩
  · left
    refine ⟨f1, ?_⟩
    rw [f2]; exact d3
  · right
    exact ⟨by omega, f2⟩

-- from 23 characters to 24 the storage moves, to 25 it stays
example : (capacity (heapCfg false) (.user 0) (runOk (heapCfg false) [.makeFill 0 0 23 97] St.init).2).1 = .ok 23 ∧
    (capacity (heapCfg false) (.user 0) (runOk (heapCfg false) [.makeFill 0 0 23 97, .pushBack 0 98] St.init).2).1 = .ok 46 ∧
    (capacity (heapCfg false) (.user 0) (runOk (heapCfg false) [.makeFill 0 0 23 97, .pushBack 0 98, .pushBack 0 98] St.init).2).1 = .ok 46 := by
  decide +kernel

/-- `push_back` one character after the other, counting the characters that had to be moved: the
whole contents whenever `data()` changes. -/
def pushAll (cfg : Cfg) (v : Obj) : List Ch → M Nat
  | [] => pure 0
  | c :: cs => do
    let p ← dataPtr v
    let k ← size cfg v
    pushBack cfg v c
    let q ← dataPtr v
    let m ← pushAll cfg v cs
    pure (m + if p = q then 0 else k)

/-- C57: adding `n` characters one by one to a string of length `k` moves at most `3 * (k + n)`
characters, however often the storage grows. -/
theorem pushAll_bound {m k : Nat} {cs : List Ch} (hc : cfg.Ok) (hk : k + cs.length < M64) :
    ∀ {a : Abs} {s s' : St} {xs : List Ch} {c M : Nat}, Reach cfg a s → a v = some xs → xs.length = k →
    capacity cfg (.user v) s = (.ok c, s) → M ≤ 2 * c → M ≤ 3 * k →
    pushAll cfg (.user v) cs s = (.ok m, s') → M + m ≤ 3 * (k + cs.length) ∧
      ∃ a', Reach cfg a' s' ∧ a' v = some (xs ++ cs) := by
  induction cs generalizing m k with
  | nil =>
    intro a s s' xs c M h hv hx _ _ hM hr
    cases hr
    exact ⟨by simp; omega, a, h, by simpa using hv⟩
  | cons ch cs ih =>
    intro a s s' xs c M h hv hx hcap hM1 hM2 hr
    subst hx
    simp only [List.length_cons] at hk
    obtain ⟨hsz, ⟨_, hcap', hle⟩, p, hp, _⟩ := storage_ok hc h hv
    rw [hcap] at hcap'; cases hcap'
    unfold pushAll at hr
    rw [bind_ok hp, bind_ok hsz] at hr
    rw [bind_apply] at hr
    rcases e1 : pushBack cfg (.user v) ch s with ⟨r1, s1⟩
    rw [e1] at hr
    cases r1 with
    | error e => cases hr
    | ok w =>
      simp only at hr
      have hrun : (Op.pushBack v ch).run cfg s = (.ok (), s1) := e1
      have ho : (Op.pushBack v ch).spec cfg.arena a = some (.done (upd a v (some (xs ++ [ch])))) := by
        have : xs.length + 1 < M64 := by omega
        simp [Op.spec, hv, Abs.set, this]
      have hn := h.done ho hrun
      obtain ⟨c', q, hc', hq, hstep⟩ := push_back_step hc h hv hcap hp (by omega) hrun
      rw [bind_ok hq, bind_apply] at hr
      rcases e2 : pushAll cfg (.user v) cs s1 with ⟨r2, s2⟩
      rw [e2] at hr
      cases r2 with
      | error e => cases hr
      | ok m2 =>
        cases hr
        have key := ih (k := xs.length + 1) (m := m2) (s' := s') (by omega) hn (upd_same _ _ _) (by simp) hc'
          (M := M + if p = q then 0 else xs.length)
        have hb : (M + if p = q then 0 else xs.length) ≤ 2 * c' ∧ (M + if p = q then 0 else xs.length) ≤ 3 * (xs.length + 1) := by
          rcases hstep with ⟨g1, g2⟩ | ⟨g1, g2⟩
          · rw [if_pos g1.symm]; omega
          · split <;> rcases g1 with g1 | g1 <;> omega
        obtain ⟨k1, a', k2, k3⟩ := key hb.1 hb.2 e2
        refine ⟨?_, a', k2, by simpa using k3⟩
        simp only [List.length_cons]
        omega

/-- C57: growth by `push_back` is linear in total. -/
theorem push_back_amortised {m : Nat} {cs : List Ch} (hc : cfg.Ok) (h : Reach cfg a s) (hv : a v = some xs)
    (hk : xs.length + cs.length < M64) (hr : pushAll cfg (.user v) cs s = (.ok m, s')) :
    m ≤ 3 * (xs.length + cs.length) ∧ contents cfg v s' = (.ok (xs ++ cs), s') := by
  obtain ⟨_, ⟨c, hcap, _⟩, _⟩ := storage_ok hc h hv
  obtain ⟨h1, a', h2, h3⟩ := pushAll_bound hc hk h hv rfl hcap (M := 0) (by omega) (by omega) hr
  exact ⟨by omega, contents_reached hc h2 h3⟩

example : (pushAll (heapCfg false) (.user 0) (List.replicate 80 98) (runOk (heapCfg false) [.makeEmpty 0 0] St.init).2).1 = .ok (23 + 46 + 70) := by
  decide +kernel

/-! ### C60: lengths -/

/-- C60: strings reached are shorter than `2 ^ 62` characters. -/
theorem lengths_fit (hc : cfg.Ok) (h : Reach cfg a s) (hv : a v = some xs) : xs.length < 2 ^ 62 := by
  have hr := (reach_rel hc h).1
  obtain ⟨ob, l, g, _⟩ := h.holds hc hv
  have hcore := hr.inv.core _ _ g.var
  have hs := g.size
  obtain ⟨core, al⟩ := ob
  cases core with
  | small l =>
    obtain ⟨_, n, h2, _, h4, _⟩ := hcore
    have h5 := smallSize_eq h2 h4
    rw [hs] at h5
    have : xs.length = n := Option.some.inj h5
    have : cfg.ms ≤ 23 := Nat.div_le_self _ _
    omega
  | ml d n cap large =>
    obtain ⟨B, _, _, h3, _, _, h6⟩ := hcore
    have : xs.length = n := by simpa [Core.size?] using hs.symm
    rcases hc.w with e | e | e <;> rw [e] at h6 <;> omega

/-- C60: an operation whose result would be too long fails, with an exception.  Missing: arguments for which the length wraps
around, see `append_wraps_violated` and `insert_wraps_violated`. -/
theorem too_long_fails_partial (hc : cfg.Ok) (h : Reach cfg a s) (ho : op.spec cfg.arena a = some (.done a')) (hv : a' v = some xs)
    (hx : 2 ^ 62 ≤ xs.length) :
    ∃ e s', op.run cfg s = (.error e, s') ∧
      (e = .throw "bad_alloc" ∨ e = .throw "length_error" ∨ e = .throw "terminate" ∨ cfg.arena = false ∧ s'.lost = true) := by
  rcases ops_meet_spec hc h ho with ⟨s', _, h1, _⟩ | ⟨e, s', h1, _, _, h2⟩
  · have := lengths_fit hc h1 hv
    omega
  · exact ⟨e, s', h1, h2⟩

-- a request for `2 ^ 63` characters
example : (runOk (heapCfg true) [.make 0 0 (.lit [97, 98])] St.init).1 = .ok () ∧
    (runOk (heapCfg true) [.make 0 0 (.lit [97, 98]), .reserve 0 (2 ^ 63)] St.init).1 = .error (.throw "bad_alloc") := by
  decide +kernel

example (n : Nat) (h1 : 2 ^ 62 ≤ n) (h2 : n + 1 < M64) : ∃ a s a' xs, Reach (heapCfg true) a s ∧
    (Op.appendFill 0 n 97).spec false a = some (.done a') ∧ a' 0 = some xs ∧ 2 ^ 62 ≤ xs.length := by
  obtain ⟨a, h, e, _⟩ := reached (heapCfg_ok true) (v := 0) (xs := [97]) (ops := [.make 0 0 (.lit [97])]) (by decide +kernel) (by decide +kernel)
  refine ⟨a, _, upd a 0 (some ([97] ++ List.replicate n 97)), _, h, ?_, upd_same _ _ _, ?_⟩
  · simp only [Op.spec, e, Option.bind_eq_bind, Option.bind_some, Abs.set]
    exact if_pos (by rw [List.length_append, List.length_replicate]; simp only [List.length_singleton]; omega)
  · rw [List.length_append, List.length_replicate]; omega

/-! ### C61: reading and concatenation -/

/-- C61: `starts_with` says whether the argument is a prefix. -/
theorem starts_with_spec {t : List Ch} (hc : cfg.Ok) (h : Reach cfg a s) (hv : a v = some xs) :
    startsWith cfg (.user v) t s = (.ok (decide (t <+: xs)), s) := by
  have hr := (reach_rel hc h).1
  have hx := hr.held v xs hv
  obtain ⟨p, hp, _⟩ := hx.dataM
  unfold startsWith
  rw [bind_ok hp, bind_ok (hx.sizeM hr.inv), List.length_map]
  split
  · next hl =>
    have hrd := hx.read hp (i := 0) (k := t.length) (by simp; omega)
    rw [Ptr.add_zero] at hrd
    rw [bind_ok hrd]
    have : ((xs.map some : List Cell).drop 0).take t.length = (xs.take t.length).map some := by simp
    rw [this]
    have inj : ∀ {l1 l2 : List Ch}, l1.map some = l2.map some ↔ l1 = l2 := fun {l1 l2} =>
      (List.map_injective_iff.2 (fun _ _ => Option.some.inj)).eq_iff
    simp only [inj, List.prefix_iff_eq_take, eq_comm (a := t)]
    rfl
  · next hl =>
    have : ¬ t <+: xs := fun hh => hl hh.length_le
    simp only [this, decide_false]
    rfl

/-- C61: `ends_with` says whether the argument is a suffix. -/
theorem ends_with_spec {t : List Ch} (hc : cfg.Ok) (h : Reach cfg a s) (hv : a v = some xs) :
    endsWith cfg (.user v) t s = (.ok (decide (t <:+ xs)), s) := by
  have hr := (reach_rel hc h).1
  have hx := hr.held v xs hv
  obtain ⟨p, hp, _⟩ := hx.dataM
  unfold endsWith
  rw [bind_ok hp, bind_ok (hx.sizeM hr.inv), List.length_map]
  split
  · next hl =>
    have hrd := hx.read hp (i := xs.length - t.length) (k := t.length) (by simp; omega)
    rw [bind_ok hrd]
    have : ((xs.map some : List Cell).drop (xs.length - t.length)).take t.length = (xs.drop (xs.length - t.length)).map some := by
      rw [List.take_of_length_le (by simp; omega), List.map_drop]
    rw [this]
    have inj : ∀ {l1 l2 : List Ch}, l1.map some = l2.map some ↔ l1 = l2 := fun {l1 l2} =>
      (List.map_injective_iff.2 (fun _ _ => Option.some.inj)).eq_iff
    simp only [inj, List.suffix_iff_eq_drop, eq_comm (a := t)]
    rfl
  · next hl =>
    have : ¬ t <:+ xs := fun hh => hl hh.length_le
    simp only [this, decide_false]
    rfl

example : (startsWith (heapCfg true) (.user 0) [97, 98] (runOk (heapCfg true) [.make 0 0 (.lit [97, 98, 99])] St.init).2).1 = .ok true ∧
    (endsWith (heapCfg true) (.user 0) [97, 98] (runOk (heapCfg true) [.make 0 0 (.lit [97, 98, 99])] St.init).2).1 = .ok false := by
  decide +kernel

theorem getAt_reads {o : Obj} {i : Nat} (hx : Reads cfg s o xs) (hi : i < xs.length) : getAt o i s = (.ok xs[i], s) := by
  obtain ⟨p, hp, _⟩ := hx.dataM
  have hr := hx.read hp (i := i) (k := 1) (by simp; omega)
  have e : ((xs.map some : List Cell).drop i).take 1 = [some xs[i]] := by
    rw [← List.map_drop, List.drop_eq_getElem_cons hi, List.map_cons]; rfl
  rw [e] at hr
  unfold getAt readChar
  rw [bind_ok hp, bind_ok hr]; rfl

/-- C61: `at(i)` gives the character, or throws `out_of_range`. -/
theorem at_spec {i : Nat} (hc : cfg.Ok) (h : Reach cfg a s) (hv : a v = some xs) :
    atConst cfg (.user v) i s = (match xs[i]? with | some c => .ok c | none => .error (.throw "out_of_range"), s) := by
  have hr := (reach_rel hc h).1
  have hx := hr.held v xs hv
  unfold atConst
  rw [bind_ok (hx.sizeM hr.inv), List.length_map]
  by_cases hi : i < xs.length
  · rw [bind_ok (enforce_ok (by simpa using hi)), getAt_reads hx hi, List.getElem?_eq_getElem hi]
  · have : enforce (decide (i < xs.length)) s = (.error (.throw "out_of_range"), s) := by
      simp [enforce, hi]; rfl
    rw [bind_apply, this, List.getElem?_eq_none (by omega)]

/-- C61: `front()` and `back()`. -/
theorem front_back_spec (hc : cfg.Ok) (h : Reach cfg a s) (hv : a v = some xs) (hne : xs ≠ []) :
    front (.user v) s = (.ok (xs.head hne), s) ∧ back cfg (.user v) s = (.ok (xs.getLast hne), s) := by
  have hr := (reach_rel hc h).1
  have hx := hr.held v xs hv
  have hl : 0 < xs.length := List.length_pos_iff.2 hne
  obtain ⟨p, hp, _⟩ := hx.dataM
  constructor
  · have := getAt_reads hx hl
    unfold getAt at this
    rw [bind_ok hp, Ptr.add_zero] at this
    unfold front
    rw [bind_ok hp, this, List.head_eq_getElem]
  · have := getAt_reads hx (i := xs.length - 1) (by omega)
    unfold getAt at this
    rw [bind_ok hp] at this
    unfold back
    rw [bind_ok (hx.sizeM hr.inv), List.length_map, bind_ok (assert_ok (by simp; omega) _), bind_ok hp, if_neg (by omega), this,
      List.getLast_eq_getElem]

/-- C61: `copy(s, n, pos)` copies the characters from `pos` on, at most `n`. -/
theorem copy_spec {n pos : Nat} (hc : cfg.Ok) (h : Reach cfg a s) (hv : a v = some xs) :
    copyOut cfg (.user v) n pos s =
      (if pos ≤ xs.length then .ok (((xs.drop pos).take n).map some) else .error (.throw "out_of_range"), s) := by
  have hr := (reach_rel hc h).1
  have hx := hr.held v xs hv
  unfold copyOut
  rw [bind_ok (hx.sizeM hr.inv), List.length_map]
  by_cases hi : pos ≤ xs.length
  · obtain ⟨p, hp, _⟩ := hx.dataM
    have hrd := hx.read hp (i := pos) (k := min n (xs.length - pos)) (by simp; omega)
    rw [bind_ok (enforce_ok (by simpa using hi)), bind_ok hp, hrd, if_pos hi]
    have : (xs.drop pos).take (min n (xs.length - pos)) = (xs.drop pos).take n := by
      rw [← List.take_take, List.take_of_length_le (l := xs.drop pos) (by simp)]
    rw [← List.map_drop, ← List.map_take, this]
  · have : enforce (decide (pos ≤ xs.length)) s = (.error (.throw "out_of_range"), s) := by
      simp [enforce, hi]; rfl
    rw [bind_apply, this, if_neg hi]

example : (let s := (runOk (heapCfg true) [.make 0 0 (.lit [97, 98, 99])] St.init).2
    ((atConst (heapCfg true) (.user 0) 3 s).1 = .error (.throw "out_of_range") ∧ (back (heapCfg true) (.user 0) s).1 = .ok 99 ∧
      (copyOut (heapCfg true) (.user 0) 9 1 s).1 = .ok [some 98, some 99])) := by
  decide +kernel

end Verif.Str

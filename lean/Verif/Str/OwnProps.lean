import Verif.Str.RoomProps

/-!
C58 for `insert` and `append(first, last)`: own characters are inserted rightly when the string has room and the
source ends before the place of the insertion.
-/

namespace Verif.Str

open M

variable {cfg : Cfg} {a a' : Abs} {s s' : St} {xs : List Ch} {P : Ptr} {c k v i n pos : Nat} {g : Bool}

/-- The characters in front of the place of an insertion are where they were after room has been made. -/
theorem own_after {cs cs' : List Cell} (h1 : cs'.length = cs.length + n) (h2 : cs'.take cs.length = cs) (hi : i + n ≤ pos)
    (hp : pos ≤ cs.length) (zs : List Cell) : ((put cs' (pos + n) zs).drop i).take n = (cs.drop i).take n := by
  unfold put
  rw [List.append_assoc, List.drop_append_of_le_length (by simp; omega), List.take_append_of_le_length (by simp; omega)]
  rw [List.drop_take, List.take_take, Nat.min_eq_left (by omega)]
  conv_rhs => rw [← h2]
  rw [List.drop_take, List.take_take, Nat.min_eq_left (by omega)]

theorem checker_congr {v : Obj} {cs : List Cell} {x y : M Unit} (hw : WInv cfg s) (hv : Raw cfg s v cs) (h : x s = y s) :
    checker cfg v x s = checker cfg v y s := by
  unfold checker
  rw [bind_ok (sane_ok hw hv), bind_ok (sane_ok hw hv)]
  unfold checking
  rw [h]

/-- `insert(b + pos, b + i, b + i + n)` does the same as inserting a copy. -/
theorem insertRangeAt_own (hc : cfg.Ok) (hr : Rel cfg a s) (hx : a v = some xs) (hat : At cfg (.user v) P c g xs.length s)
    (hfit : xs.length + n ≤ c) (hi : i + n ≤ pos) (hp : pos ≤ xs.length) :
    insertRangeAt cfg (.user v) (P.add pos) (P.add i) n s =
      insertRangeAt cfg (.user v) (P.add pos) (.ext ((xs.drop i).take n) 0) n s := by
  have hw := hr.inv
  have hv := hr.held v xs hx
  have hb := hat.big
  have hlen : (xs.map some : List Cell).length = xs.length := by simp
  unfold insertRangeAt
  refine checker_congr hw hv ?_
  rw [bind_ok (posOf_ok hw hv hat.dataPtrM (by omega)), bind_ok (posOf_ok hw hv hat.dataPtrM (by omega)), bind_ok hat.sizeM, bind_ok hat.sizeM]
  rw [bind_apply, bind_apply]
  have he := expand_tri hc hw ⟨hr.tmps 0, hr.tmps 1⟩ hv (delta := n) true (by rw [hlen]; omega)
  have hin := expandNoinit_in (cfg := cfg) (v := .user v) (P := P) (c := c) (g := g) (k := xs.length) (delta := n) (exp := true) hfit s hat
  simp only [Tri] at he
  rcases hrun : expandNoinit cfg (.user v) n true s with ⟨r, s1⟩
  rw [hrun] at he hin
  cases r with
  | error e => rfl
  | ok r =>
    obtain ⟨w1, f1, p', cs', h1, h2, h3, h4, rfl, h6⟩ := he
    obtain ⟨_, _, k', _, hat1⟩ := hin
    have hat1 : At cfg (.user v) P c g k' s1 := hat1
    have hpP : p' = P := by
      have := hat1.dataPtrM
      rw [h2] at this; cases this; rfl
    subst hpP
    have own : Own cfg s1 (.user v) p' cs' := by
      obtain ⟨b, hb1, hb2⟩ := isShared_ok w1 h1
      rw [hat1.isSharedM] at hb1; cases hb1
      obtain ⟨ob, l, m, hh, e⟩ := h1
      have := hh.dataM
      rw [h2] at this; cases this
      exact ⟨ob, l, m, hh, hb2 rfl, rfl, e⟩
    simp only
    rw [bind_ok (begin_own w1 own), bind_ok (begin_own w1 own)]
    obtain ⟨s3, e1, e2, e3, e4, _⟩ := own.move w1 (i := pos) (j := pos + n) (k := xs.length - pos) (by omega) (by omega)
    rw [bind_ok e1, bind_ok e1]
    unfold podMove
    have hrd : readCells (p'.add i) n s3 = (.ok (((xs.drop i).take n).map some), s3) := by
      obtain ⟨ob, l, m, hh, hx', rfl, hl⟩ := e4
      have hm := Raw.length_take e2 hh
      have hbd := hh.bound e2
      have hml : m = cs'.length := by
        rw [← hm, ← hl, put_length (by simp; omega)]
      have := hh.read (i := i) (k := n) (by omega)
      rw [this]
      have e5 : (l.drop i).take n = ((l.take m).drop i).take n := by
        rw [List.drop_take, List.take_take, Nat.min_eq_left (by omega)]
      rw [e5, ← hl, own_after h3 h4 hi (by omega)]
      simp [List.map_drop, List.map_take]
    have hrd' : readCells (.ext ((xs.drop i).take n) 0) n s3 = (.ok (((xs.drop i).take n).map some), s3) := by
      have hl : ((xs.drop i).take n).length = n := by simp; omega
      simp only [readCells]
      rw [if_pos (by omega), List.drop_zero, List.take_of_length_le (by omega)]
    rw [bind_ok hrd, bind_ok hrd']

theorem At.beginM (hat : At cfg (.user v) P c g xs.length s) (hr : Rel cfg a s) (hx : a v = some xs) :
    begin_ cfg (.user v) s = (.ok P, s) := by
  obtain ⟨b, hb1, hb2⟩ := isShared_ok hr.inv (hr.held v xs hx)
  rw [hat.isSharedM] at hb1; cases hb1
  obtain ⟨ob, l, m, hh, e⟩ := hr.held v xs hx
  have := hh.dataM
  rw [hat.dataPtrM] at this; cases this
  exact begin_own hr.inv ⟨ob, l, m, hh, hb2 rfl, rfl, e⟩

/-- C58: `insert(pos, data() + i, n)` of a string that shares its storage with no copy and has room for the result does
the same as if the characters had been copied first, and succeeds, when they end before the place of the insertion.
What is missing is in `insert_alias_violated`: a source behind that place, or a string that has to grow. -/
theorem insert_own_partial (hc : cfg.Ok) (h : Reach cfg a s) (hx : a v = some xs) (hst : (storage cfg v s).1 = .ok (P, c, false))
    (hsso : cfg.sso = true ∨ ∃ b, P = .blk b 0) (hfit : xs.length + n ≤ c) (hi : i + n ≤ pos) (hp : pos ≤ xs.length) :
    ∃ s', (Op.insert v pos (.sub v i n)).run cfg s = (.ok (), s') ∧
      Reach cfg (upd a v (some (xs.take pos ++ (xs.drop i).take n ++ xs.drop pos))) s' ∧
      storage cfg v s' = (.ok (P, c, false), s') ∧ s'.next = s.next := by
  have hr := (reach_rel hc h).1
  obtain ⟨g, hat⟩ := at_of hc hr hx hst hsso
  have hb := hat.big
  have hl : ((xs.drop i).take n).length = n := by simp; omega
  have hrun : (Op.insert v pos (.sub v i n)).run cfg s = (Op.insert v pos (.lit ((xs.drop i).take n))).run cfg s := by
    simp only [Op.run, Src.resolve]
    rw [bind_apply, bind_ok hat.dataPtrM]
    show Str.insert cfg (.user v) pos (P.add i) n s = Str.insert cfg (.user v) pos (.ext ((xs.drop i).take n) 0) ((xs.drop i).take n).length s
    rw [hl]
    unfold Str.insert
    rw [bind_ok hat.sizeM, bind_ok hat.sizeM, bind_ok (enforce_ok (by simpa using hp)), bind_ok (enforce_ok (by simpa using hp))]
    have hbeg := hat.beginM hr hx
    rw [bind_ok hbeg, bind_ok hbeg]
    exact insertRangeAt_own hc hr hx hat hfit hi hp
  have ho : (Op.insert v pos (.lit ((xs.drop i).take n))).spec cfg.arena a =
      some (.done (upd a v (some (xs.take pos ++ (xs.drop i).take n ++ xs.drop pos)))) := by
    have h1 : ((xs.drop i).take n).length < M64 := by rw [hl]; omega
    have h2 : (splice xs pos 0 ((xs.drop i).take n)).length < M64 := by
      have : (splice xs pos 0 ((xs.drop i).take n)).length = xs.length + n := by unfold splice; simp; omega
      omega
    have h3 : (Src.lit ((xs.drop i).take n)).chars a = some ((xs.drop i).take n) := if_pos h1
    simp only [Op.spec, hx, h3, Src.isIn, if_pos hp, Option.bind_eq_bind, Option.bind_some, Abs.set, if_pos h2]
    rfl
  obtain ⟨s', e1, e2, e3⟩ := edits_in_place_partial (v := v) hc h (by simp [Op.alters]) ho hst hsso
    (fun ys hy => by rw [upd_same] at hy; cases hy; simp; omega)
  exact ⟨s', hrun.trans e1, Reach.done h ho e1, e3, e2⟩

/-- It inserts `cd` of `abcdefgh` behind the `f`, in a string with room for 23. -/
example : ∃ a s, Reach (heapCfg false) a s ∧ a 0 = some [97, 98, 99, 100, 101, 102, 103, 104] ∧
    (storage (heapCfg false) 0 s).1 = .ok (.inl (.user 0) 0, 23, false) ∧
    (contents (heapCfg false) 0 ((Op.insert 0 6 (.sub 0 2 2)).run (heapCfg false) s).2).1 =
      .ok [97, 98, 99, 100, 101, 102, 99, 100, 103, 104] := by
  obtain ⟨a, h, e, _⟩ := reached (heapCfg_ok false) (v := 0) (xs := [97, 98, 99, 100, 101, 102, 103, 104])
    (ops := [.make 0 0 (.lit [97, 98, 99, 100, 101, 102, 103, 104])]) (by decide +kernel) (by decide +kernel)
  exact ⟨a, _, h, e, by decide +kernel, by decide +kernel⟩

/-- C58: `append(begin() + i, begin() + i + n)` of a string that shares its storage with no copy and has room for the
result does the same as if the characters had been copied first, and succeeds.  What is missing is in
`append_range_alias_violated`: a string that has to grow. -/
theorem append_range_own_partial (hc : cfg.Ok) (h : Reach cfg a s) (hx : a v = some xs)
    (hst : (storage cfg v s).1 = .ok (P, c, false)) (hsso : cfg.sso = true ∨ ∃ b, P = .blk b 0) (hfit : xs.length + n ≤ c)
    (hi : i + n ≤ xs.length) :
    ∃ s', (Op.appendRange v (.sub v i n)).run cfg s = (.ok (), s') ∧ Reach cfg (upd a v (some (xs ++ (xs.drop i).take n))) s' ∧
      storage cfg v s' = (.ok (P, c, false), s') ∧ s'.next = s.next := by
  have hr := (reach_rel hc h).1
  obtain ⟨g, hat⟩ := at_of hc hr hx hst hsso
  have hb := hat.big
  have hl : ((xs.drop i).take n).length = n := by simp; omega
  have hrun : (Op.appendRange v (.sub v i n)).run cfg s = (Op.appendRange v (.lit ((xs.drop i).take n))).run cfg s := by
    simp only [Op.run, Src.resolve]
    rw [bind_apply, bind_ok hat.dataPtrM]
    show Str.appendRange cfg (.user v) (P.add i) n s =
      Str.appendRange cfg (.user v) (.ext ((xs.drop i).take n) 0) ((xs.drop i).take n).length s
    rw [hl]
    unfold Str.appendRange
    have hbeg := hat.beginM hr hx
    rw [bind_ok hbeg, bind_ok hbeg, bind_ok hat.sizeM, bind_ok hat.sizeM]
    exact insertRangeAt_own hc hr hx hat hfit hi (Nat.le_refl _)
  have ho : (Op.appendRange v (.lit ((xs.drop i).take n))).spec cfg.arena a =
      some (.done (upd a v (some (xs ++ (xs.drop i).take n)))) := by
    have h1 : ((xs.drop i).take n).length < M64 := by rw [hl]; omega
    have h2 : (xs ++ (xs.drop i).take n).length < M64 := by rw [List.length_append, hl]; omega
    have h3 : (Src.lit ((xs.drop i).take n)).chars a = some ((xs.drop i).take n) := if_pos h1
    simp only [Op.spec, hx, h3, Src.isIn, Option.bind_eq_bind, Option.bind_some, Abs.set, if_pos h2]
    rfl
  obtain ⟨s', e1, e2, e3⟩ := edits_in_place_partial (v := v) hc h (by simp [Op.alters]) ho hst hsso
    (fun ys hy => by rw [upd_same] at hy; cases hy; simp; omega)
  exact ⟨s', hrun.trans e1, Reach.done h ho e1, e3, e2⟩

/-- It doubles a string of 40 characters with room for 100. -/
example : ∃ a s, Reach (heapCfg false) a s ∧ a 0 = some (List.replicate 40 97) ∧
    (storage (heapCfg false) 0 s).1 = .ok (.blk 1 0, 100, false) ∧
    (contents (heapCfg false) 0 ((Op.appendRange 0 (.sub 0 0 40)).run (heapCfg false) s).2).1 = .ok (List.replicate 80 97) := by
  obtain ⟨a, h, ha, _⟩ := reached (heapCfg_ok false) (ops := roomy) (v := 0) (xs := List.replicate 40 97)
    (by decide +kernel) (by decide +kernel)
  exact ⟨a, _, h, ha, by decide +kernel, by decide +kernel⟩

end Verif.Str

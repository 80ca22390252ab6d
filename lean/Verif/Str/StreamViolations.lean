import Verif.Str.StreamProps
import Verif.Str.Granted

/-!
Where reading from streams and writing to streams differ from `std::string`.
-/

namespace Verif.Str

open M

variable {cfg : Cfg} {a : Abs} {s : St} {v : Nat} {xs : List Ch}

/-! ### C96: lines from streams in other states -/

/-- C96, violated: `getline` on a stream whose `failbit` is set: debug builds stop at an assertion; release builds
clear the bit, report success, and the string, which should be as before, holds a NUL character. -/
theorem getline_failed_violated :
    (∃ a s, Reach (heapCfg true) a s ∧ a 0 = some [97, 98, 99] ∧
      (getline (heapCfg true) (.user 0) { inp := [97, 10], fail := true } 10 s).1 = .error (.assertFail "getlineImpl: size")) ∧
    ∃ a s, Reach (heapCfg false) a s ∧ a 0 = some [97, 98, 99] ∧
      ((do let is ← getline (heapCfg false) (.user 0) { inp := [97, 10], fail := true } 10
           let xs ← contents (heapCfg false) 0
           pure (xs, is.fail)) s).1 = .ok ([0], false) := by
  constructor
  · obtain ⟨a, h, e, _⟩ := reached (heapCfg_ok true) (v := 0) (xs := [97, 98, 99])
      (ops := [.make 0 0 (.lit [97, 98, 99])]) (by decide +kernel) (by decide +kernel)
    exact ⟨a, _, h, e, by decide +kernel⟩
  · obtain ⟨a, h, e, _⟩ := reached (heapCfg_ok false) (v := 0) (xs := [97, 98, 99])
      (ops := [.make 0 0 (.lit [97, 98, 99])]) (by decide +kernel) (by decide +kernel)
    exact ⟨a, _, h, e, by decide +kernel⟩

/-- C96, violated: when nothing can be read as the stream has seen its end, `std::getline` leaves the string as it
is; here it is emptied. -/
theorem getline_end_violated : ∃ a s, Reach (heapCfg false) a s ∧ a 0 = some [97, 98, 99] ∧
    ((do let is ← getline (heapCfg false) (.user 0) { inp := [], eof := true } 10
         let xs ← contents (heapCfg false) 0
         pure (xs, is.fail)) s).1 = .ok ([], true) := by
  obtain ⟨a, h, e, _⟩ := reached (heapCfg_ok false) (v := 0) (xs := [97, 98, 99])
    (ops := [.make 0 0 (.lit [97, 98, 99])]) (by decide +kernel) (by decide +kernel)
  exact ⟨a, _, h, e, by decide +kernel⟩

/-- C96, violated: when the stream throws at its end, the string is as long as its capacity: what was read is
followed by what was in the memory before. -/
theorem getline_throw_violated : ∃ a s, Reach (heapCfg false) a s ∧ a 0 = some [97, 98, 99] ∧
    (let r := getline (heapCfg false) (.user 0) { inp := [120, 121], throwEof := true } 10 s
     r.1 = .error (.throw "ios_base::failure") ∧ (size (heapCfg false) (.user 0) r.2).1 = .ok 23) := by
  obtain ⟨a, h, e, _⟩ := reached (heapCfg_ok false) (v := 0) (xs := [97, 98, 99])
    (ops := [.make 0 0 (.lit [97, 98, 99])]) (by decide +kernel) (by decide +kernel)
  exact ⟨a, _, h, e, by decide +kernel⟩

/-- C96, violated: a stream told to throw when reading fails throws although a line of 30 characters is there. -/
theorem getline_long_violated : ∃ a s, Reach (heapCfg false) a s ∧ a 0 = some [97, 98, 99] ∧
    (getline (heapCfg false) (.user 0) { inp := List.replicate 30 120 ++ [10], throwFail := true } 10 s).1 =
      .error (.throw "ios_base::failure") := by
  obtain ⟨a, h, e, _⟩ := reached (heapCfg_ok false) (v := 0) (xs := [97, 98, 99])
    (ops := [.make 0 0 (.lit [97, 98, 99])]) (by decide +kernel) (by decide +kernel)
  exact ⟨a, _, h, e, by decide +kernel⟩

/-! ### C97: words -/

/-- C97, violated: `width()` stays after `is >> setw(2) >> a`, so that the next word is cut as well. -/
theorem extract_width_violated : ∃ a s, Reach (heapCfg false) a s ∧ a 0 = some [] ∧ a 1 = some [] ∧
    ((do let is ← extract (heapCfg false) (.user 0) { inp := [97, 98, 32, 99, 100, 101, 32], width := 2 }
         let _ ← extract (heapCfg false) (.user 1) is
         let xs ← contents (heapCfg false) 0
         let ys ← contents (heapCfg false) 1
         pure (is.width, xs, ys)) s).1 = .ok (2, [97, 98], [99, 100]) := by
  obtain ⟨a, h, e, e2⟩ := reached (heapCfg_ok false) (v := 0) (xs := [])
    (ops := [.make 0 0 (.lit []), .make 1 0 (.lit [])]) (by decide +kernel) (by decide +kernel)
  refine ⟨a, _, h, e, ?_, by decide +kernel⟩
  cases e2
  decide +kernel

/-- C97, violated: a character beyond 255 is passed to `isspace` of `<cctype>`, which is not defined for it. -/
theorem extract_wide_violated : ∃ a s, Reach (heapCfg false 2) a s ∧ a 0 = some [] ∧
    (extract (heapCfg false 2) (.user 0) { inp := [1080, 32] } s).1 = .error (.ub "isspace of a wide character") := by
  obtain ⟨a, h, e, _⟩ := reached (heapCfg_ok2 false) (v := 0) (xs := [])
    (ops := [.make 0 0 (.lit [])]) (by decide +kernel) (by decide +kernel)
  exact ⟨a, _, h, e, by decide +kernel⟩

/-! ### C98: writing long strings -/

/-- C98, violated: of a string of 2^31 up to 2^32 characters `os << str` writes none; it writes `fill()` characters
instead, 2^32 less the length of the string, and the stream goes bad. -/
theorem insert_long_violated (hc : cfg.Ok) (h : Reach cfg a s) (hv : a v = some xs) (h1 : 2 ^ 31 ≤ xs.length) (h2 : xs.length < 2 ^ 32) :
    insertTo cfg (.user v) {} s =
      (.ok { out := List.replicate (2 ^ 32 - xs.length) 32, ok := false, width := 0, fill := 32, left := false }, s) := by
  have hrel := (reach_rel hc h).1
  have hraw := hrel.held v xs hv
  obtain ⟨p, hp, _⟩ := hraw.dataM
  have e31 : (2 : Nat) ^ 31 = 2147483648 := rfl
  have e32 : (2 : Nat) ^ 32 = 4294967296 := rfl
  rw [e31] at h1
  rw [e32] at h2 ⊢
  unfold insertTo
  rw [bind_ok hp, bind_ok (hraw.sizeM hrel.inv), List.length_map]
  have hi : toInt32 xs.length = (xs.length : Int) - 4294967296 := by
    unfold toInt32
    rw [Nat.mod_eq_of_lt h2, if_neg (by omega)]
  rw [hi]
  unfold ostreamInsert ostreamWrite
  rw [if_pos rfl, if_pos (by show (0 : Int) > _; omega), if_neg (by simp), if_pos (by omega)]
  have : ((0 : Int) - ((xs.length : Int) - 4294967296)).toNat = 4294967296 - xs.length := by omega
  simp only [OStream.pad, this]
  rfl

example (dbg : Bool) : ∃ a s xs, Reach (heapCfg dbg) a s ∧ a 0 = some xs ∧ 2 ^ 31 ≤ xs.length ∧ xs.length < 2 ^ 32 := by
  obtain ⟨a, s, h1, h2⟩ := reach_fill dbg (2 ^ 31) 97 (by omega)
  exact ⟨a, s, _, h1, h2, by rw [List.length_replicate]; exact Nat.le_refl _, by rw [List.length_replicate]; omega⟩

theorem insert_part (hc : cfg.Ok) (h : Reach cfg a s) (hv : a v = some xs) {k : Nat} (hi : toInt32 xs.length = (k : Int))
    (hk : k ≤ xs.length) : insertTo cfg (.user v) {} s = (.ok { out := xs.take k }, s) := by
  have hrel := (reach_rel hc h).1
  have hraw := hrel.held v xs hv
  obtain ⟨p, hp, _⟩ := hraw.dataM
  unfold insertTo
  rw [bind_ok hp, bind_ok (hraw.sizeM hrel.inv), List.length_map, hi]
  have hr := hraw.read hp (i := 0) (k := k) (by simpa using hk)
  rw [Ptr.add_zero, List.drop_zero, ← List.map_take] at hr
  have hw : ostreamWrite {} p (k : Int) s = (.ok { out := xs.take k }, s) := by
    unfold ostreamWrite
    rw [if_neg (by omega)]
    have : ((k : Int)).toNat = k := by omega
    rw [this, bind_ok hr, bind_ok (known_ok _ s)]
    rfl
  unfold ostreamInsert
  rw [if_pos rfl, if_neg (by show ¬ (0 : Int) > _; omega), bind_ok hw]
  rfl

/-- C98, violated: of a string of 2^32 characters or more `os << str` writes only the first few, without an error. -/
theorem insert_cut_violated (hc : cfg.Ok) (h : Reach cfg a s) (hv : a v = some xs) {k : Nat} (h1 : xs.length = 2 ^ 32 + k)
    (h2 : k < 2 ^ 31) :
    insertTo cfg (.user v) {} s = (.ok { out := xs.take k }, s) := by
  have e31 : (2 : Nat) ^ 31 = 2147483648 := rfl
  have e32 : (2 : Nat) ^ 32 = 4294967296 := rfl
  rw [e31] at h2
  rw [e32] at h1
  refine insert_part hc h hv ?_ (by omega)
  have hm : xs.length % 4294967296 = k := by omega
  unfold toInt32
  rw [hm, if_pos h2]

example (dbg : Bool) : ∃ a s xs, Reach (heapCfg dbg) a s ∧ a 0 = some xs ∧ xs.length = 2 ^ 32 + 5 := by
  obtain ⟨a, s, h1, h2⟩ := reach_fill dbg (2 ^ 32 + 5) 97 (by omega)
  exact ⟨a, s, _, h1, h2, by rw [List.length_replicate]⟩

end Verif.Str

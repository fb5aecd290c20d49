import Verif.World
/-!
# Reporting errors

cliserv.c 48-74 `err_nonfatal`: the message is copied into a buffer of 150 bytes, with the first `%m`
(or, if there is none, the first `%h`) replaced by the text of the current error. The buffer is a list of
bytes, `none` marking bytes that were never written; touching memory outside it is `Out.ub`.
-/

set_option autoImplicit false

namespace Nbd

/-- C library `strncpy(buf + off, src, n)`: always writes exactly `n` bytes. `n` is a `size_t`. Called at cliserv.c 49-73. -/
def strncpyAt (buf : List (Option Byte)) (off : Nat) (src : List Byte) (n : Nat) : Out (List (Option Byte)) :=
  if buf.length < off + n then .ub
  else .val (buf.take off ++ ((src.take n).map some ++ List.replicate (n - src.length) (some 0)) ++ buf.drop (off + n))

/-- C library `strlen(buf)`: reads up to the first NUL; `ub` if there is none, or if it reads a byte never
written. Called at cliserv.c 49-73. -/
def strlenBuf : List (Option Byte) → Out Nat
  | [] => .ub
  | none :: _ => .ub
  | some b :: rest =>
    if b = 0 then .val 0
    else match strlenBuf rest with
      | .val n => .val (n + 1)
      | .ub => .ub
      | .exit => .exit

/-- C library `strstr(s, "%c")`: the position of the first `%` followed by `c`. Called at cliserv.c 49-73. -/
def strstr2 (c : Byte) : List Byte → Option Nat
  | a :: b :: rest => if a = 37 ∧ b = c then some 0 else (strstr2 c (b :: rest)).map (· + 1)
  | _ => none

/-- cliserv.c 48-68: `sizeof(s1)`. -/
def ERRBUF : Nat := 150

/-- cliserv.c 53-55, 60-62: the replacement of the two characters at `p` by `text`. `sizeof(s1) - (s2 - s)` is a
`size_t`. -/
def errReplace (s1 : List (Option Byte)) (s : List Byte) (p : Nat) (text : List Byte) : Out (List (Option Byte)) :=
  match strncpyAt s1 p text ((2 ^ 64 + ERRBUF - p) % 2 ^ 64) with
  | .ub => .ub
  | .exit => .exit
  | .val s1 =>
    match strlenBuf s1 with
    | .ub => .ub
    | .exit => .exit
    | .val q => strncpyAt s1 q (s.drop (p + 2)) (ERRBUF - q)

/-- cliserv.c 48-74 `err_nonfatal`: the text printed. `s` is the message (a C string), `errm` and `errh` are
`strerror(errno)` and `hstrerror(h_errno)`. -/
def errNonfatal (s errm errh : List Byte) : Out (List Byte) :=
  match strncpyAt (List.replicate ERRBUF none) 0 s ERRBUF with
  | .ub => .ub
  | .exit => .exit
  | .val s1 =>
    match (match strstr2 109 s with
      | some p => errReplace s1 s p errm
      | none =>
        match strstr2 104 s with
        | some p => errReplace s1 s p errh
        | none => .val s1) with
    | .ub => .ub
    | .exit => .exit
    | .val s1 =>
      let s1 := s1.take (ERRBUF - 1) ++ [some 0]
      match strlenBuf s1 with
      | .ub => .ub
      | .exit => .exit
      | .val n => .val ((s1.take n).map (·.getD 0))

/-! ### Exact results -/

theorem strlenBuf_of (l : List Byte) (rest : List (Option Byte)) (h : (0 : Byte) ∉ l) :
    strlenBuf (l.map some ++ some 0 :: rest) = .val l.length := by
  induction l with
  | nil => simp [strlenBuf]
  | cons b l ih =>
    simp only [List.mem_cons, not_or] at h
    simp only [List.map_cons, List.cons_append, strlenBuf, List.length_cons]
    rw [if_neg (fun hb => h.1 hb.symm), ih h.2]

theorem strlenBuf_none (l : List Byte) (h : (0 : Byte) ∉ l) : strlenBuf (l.map some) = .ub := by
  induction l with
  | nil => rfl
  | cons b l ih =>
    simp only [List.mem_cons, not_or] at h
    simp only [List.map_cons, strlenBuf]
    rw [if_neg (fun hb => h.1 hb.symm), ih h.2]

theorem strstr2_lt (c : Byte) (s : List Byte) (p : Nat) (h : strstr2 c s = some p) : p + 2 ≤ s.length := by
  induction s generalizing p with
  | nil => simp [strstr2] at h
  | cons a s ih =>
    cases s with
    | nil => simp [strstr2] at h
    | cons b s =>
      unfold strstr2 at h
      split at h
      · cases h; simp
      · rw [Option.map_eq_some_iff] at h
        obtain ⟨q, hq, rfl⟩ := h
        have := ih q hq
        simp only [List.length_cons] at this ⊢
        omega

/-- The buffer holding a C string of less than 150 bytes: the string, then NULs. -/
def errBuf (l : List Byte) : List (Option Byte) :=
  (l.take ERRBUF).map some ++ List.replicate (ERRBUF - l.length) (some 0)

theorem errBuf_length (l : List Byte) : (errBuf l).length = ERRBUF := by
  unfold errBuf
  simp only [List.length_append, List.length_map, List.length_take, List.length_replicate]
  omega

theorem strncpy_first (s : List Byte) : strncpyAt (List.replicate ERRBUF none) 0 s ERRBUF = .val (errBuf s) := by
  unfold strncpyAt errBuf
  rw [if_neg (by simp [List.length_replicate])]
  simp

/-- Copying to position `p` of a buffer that starts with `s`. -/
theorem strncpy_at (s text : List Byte) (p : Nat) (hp : p ≤ s.length) (hp2 : p ≤ ERRBUF) :
    strncpyAt (errBuf s) p text (ERRBUF - p) = .val (errBuf (s.take p ++ text)) := by
  unfold strncpyAt
  rw [errBuf_length, if_neg (by omega)]
  congr 1
  unfold errBuf
  have h1 : ((s.take ERRBUF).map some ++ List.replicate (ERRBUF - s.length) (some 0)).take p = (s.take p).map some := by
    rw [List.take_append_of_le_length (by simp only [List.length_map, List.length_take]; omega), ← List.map_take,
      List.take_take, Nat.min_eq_left hp2]
  have h2 : ((s.take ERRBUF).map some ++ List.replicate (ERRBUF - s.length) (some (0 : Byte))).drop (p + (ERRBUF - p)) = [] := by
    rw [List.drop_eq_nil_iff]
    simp only [List.length_append, List.length_map, List.length_take, List.length_replicate]
    omega
  rw [h1, h2, List.append_nil, List.take_append, List.map_append, List.append_assoc, List.take_take,
    Nat.min_eq_right hp2, List.length_take, Nat.min_eq_left hp, List.length_append, List.length_take, Nat.min_eq_left hp]
  congr 3
  omega

theorem errReplace_ok (s text : List Byte) (p : Nat) (h0 : (0 : Byte) ∉ s) (ht : (0 : Byte) ∉ text)
    (hp : p + 2 ≤ s.length) (hl : p + text.length < ERRBUF) :
    errReplace (errBuf s) s p text = .val (errBuf (s.take p ++ text ++ s.drop (p + 2))) := by
  unfold errReplace
  have hn : (2 ^ 64 + ERRBUF - p) % 2 ^ 64 = ERRBUF - p := by unfold ERRBUF at *; omega
  rw [hn, strncpy_at s text p (by omega) (by omega)]
  have hlen : (s.take p ++ text).length = p + text.length := by
    rw [List.length_append, List.length_take, Nat.min_eq_left (by omega)]
  have hq : strlenBuf (errBuf (s.take p ++ text)) = .val (p + text.length) := by
    have hbuf : errBuf (s.take p ++ text) =
        (s.take p ++ text).map some ++ some 0 :: List.replicate (ERRBUF - (p + text.length) - 1) (some 0) := by
      unfold errBuf
      rw [List.take_of_length_le (by omega), hlen, ← List.replicate_succ]
      congr 2
      omega
    rw [hbuf, strlenBuf_of _ _ (by
      rw [List.mem_append, not_or]
      exact ⟨fun h => h0 (List.mem_of_mem_take h), ht⟩), hlen]
  simp only [hq]
  rw [strncpy_at (s.take p ++ text) (s.drop (p + 2)) (p + text.length) (by omega) (by omega),
    List.take_of_length_le (by omega)]

theorem errFinish (l : List Byte) (h0 : (0 : Byte) ∉ l) :
    strlenBuf ((errBuf l).take (ERRBUF - 1) ++ [some 0]) = .val (min l.length (ERRBUF - 1)) ∧
    (((errBuf l).take (ERRBUF - 1) ++ [some 0]).take (min l.length (ERRBUF - 1))).map (fun o : Option Byte => o.getD 0) = l.take (ERRBUF - 1) := by
  have hb : (errBuf l).take (ERRBUF - 1) ++ [some 0] =
      (l.take (ERRBUF - 1)).map some ++ some 0 :: List.replicate (ERRBUF - 1 - l.length) (some 0) := by
    unfold errBuf
    by_cases h : l.length < ERRBUF
    · have hl : l.length ≤ ERRBUF - 1 := by unfold ERRBUF at *; omega
      rw [List.take_of_length_le (Nat.le_of_lt h), List.take_append, List.take_of_length_le (l := l.map some) (by
        rw [List.length_map]; exact hl), List.take_of_length_le hl, List.length_map, List.take_replicate,
        List.append_assoc, ← List.replicate_succ]
      congr 1
      rw [show ([some 0] : List (Option Byte)) = List.replicate 1 (some 0) from rfl, List.replicate_append_replicate]
      congr 1
      unfold ERRBUF at *; omega
    · have h1 : ERRBUF - l.length = 0 := by omega
      have h2 : ERRBUF - 1 - l.length = 0 := by omega
      rw [h1, h2, List.replicate_zero, List.append_nil, ← List.map_take, List.take_take]
      congr 3
  have hm : (0 : Byte) ∉ l.take (ERRBUF - 1) := fun h => h0 (List.mem_of_mem_take h)
  rw [hb]
  constructor
  · rw [strlenBuf_of _ _ hm, List.length_take, Nat.min_comm]
  · rw [List.take_append_of_le_length (by rw [List.length_map, List.length_take, Nat.min_comm]; exact Nat.le_refl _),
      List.take_of_length_le (by rw [List.length_map, List.length_take, Nat.min_comm]; exact Nat.le_refl _), List.map_map]
    exact List.map_id' _

/-- No `%m` or `%h`: the first 149 bytes of the message. -/
theorem errNonfatal_plain (s errm errh : List Byte) (h0 : (0 : Byte) ∉ s) (hm : strstr2 109 s = none)
    (hh : strstr2 104 s = none) : errNonfatal s errm errh = .val (s.take 149) := by
  unfold errNonfatal
  rw [strncpy_first, hm, hh]
  simp only [errFinish s h0]
  rfl

/-- `%m` or `%h` whose replacement fits. -/
theorem errNonfatal_replace (s errm errh text : List Byte) (p : Nat) (h0 : (0 : Byte) ∉ s) (ht : (0 : Byte) ∉ text)
    (hp : (strstr2 109 s = some p ∧ text = errm) ∨ (strstr2 109 s = none ∧ strstr2 104 s = some p ∧ text = errh))
    (hl : p + text.length < 150) :
    errNonfatal s errm errh = .val ((s.take p ++ text ++ s.drop (p + 2)).take 149) := by
  have hlen : p + 2 ≤ s.length := by
    rcases hp with h | h
    · exact strstr2_lt _ _ _ h.1
    · exact strstr2_lt _ _ _ h.2.1
  have hn : (0 : Byte) ∉ s.take p ++ text ++ s.drop (p + 2) := by
    rw [List.mem_append, List.mem_append, not_or, not_or]
    exact ⟨⟨fun h => h0 (List.mem_of_mem_take h), ht⟩, fun h => h0 (List.mem_of_mem_drop h)⟩
  have hr := errReplace_ok s text p h0 ht hlen hl
  have hq : (match strstr2 109 s with
      | some p => errReplace (errBuf s) s p errm
      | none =>
        match strstr2 104 s with
        | some p => errReplace (errBuf s) s p errh
        | none => .val (errBuf s)) = .val (errBuf (s.take p ++ text ++ s.drop (p + 2))) := by
    rcases hp with ⟨h1, rfl⟩ | ⟨h1, h2, rfl⟩
    · rw [h1]; exact hr
    · rw [h1, h2]; exact hr
  unfold errNonfatal
  rw [strncpy_first]
  simp only []
  rw [hq]
  simp only [errFinish _ hn]
  rfl

/-- `%m` or `%h` whose replacement does not fit: memory outside the buffer is touched. -/
theorem errNonfatal_overflow (s errm errh text : List Byte) (p : Nat) (h0 : (0 : Byte) ∉ s) (ht : (0 : Byte) ∉ text)
    (hs : s.length < 2 ^ 64)
    (hp : (strstr2 109 s = some p ∧ text = errm) ∨ (strstr2 109 s = none ∧ strstr2 104 s = some p ∧ text = errh))
    (hl : 150 ≤ p + text.length) : errNonfatal s errm errh = .ub := by
  have hlen : p + 2 ≤ s.length := by
    rcases hp with h | h
    · exact strstr2_lt _ _ _ h.1
    · exact strstr2_lt _ _ _ h.2.1
  have hr : errReplace (errBuf s) s p text = .ub := by
    unfold errReplace
    by_cases hp2 : p ≤ ERRBUF
    · have hn : (2 ^ 64 + ERRBUF - p) % 2 ^ 64 = ERRBUF - p := by unfold ERRBUF at *; omega
      rw [hn, strncpy_at s text p (by omega) hp2]
      have : strlenBuf (errBuf (s.take p ++ text)) = .ub := by
        unfold errBuf
        rw [List.length_append, List.length_take, Nat.min_eq_left (by omega),
          show ERRBUF - (p + text.length) = 0 from by unfold ERRBUF; omega, List.replicate_zero, List.append_nil]
        apply strlenBuf_none
        intro h
        have := List.mem_of_mem_take h
        rw [List.mem_append] at this
        rcases this with h | h
        · exact h0 (List.mem_of_mem_take h)
        · exact ht h
      simp only [this]
    · have : strncpyAt (errBuf s) p text ((2 ^ 64 + ERRBUF - p) % 2 ^ 64) = .ub := by
        unfold strncpyAt
        rw [errBuf_length, if_pos (by omega)]
      rw [this]
  unfold errNonfatal
  rw [strncpy_first]
  simp only []
  have hq : (match strstr2 109 s with
      | some p => errReplace (errBuf s) s p errm
      | none =>
        match strstr2 104 s with
        | some p => errReplace (errBuf s) s p errh
        | none => .val (errBuf s)) = .ub := by
    rcases hp with ⟨h1, rfl⟩ | ⟨h1, h2, rfl⟩
    · rw [h1]; exact hr
    · rw [h1, h2]; exact hr
  rw [hq]

end Nbd

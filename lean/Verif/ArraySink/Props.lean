import Verif.ArraySink.Model

/-!
# C75: sinks into arrays
-/
namespace Verif.ArraySink

/-- The caller keeps its data outside the buffer of the sink, and does not overrun the space it was given. `done` counts the bytes put before. -/
def Proper (xor : Bool) (b size : Nat) : Nat → List Op → Prop
  | _, [] => True
  | done, .put p x :: ops => (p + x.length ≤ b ∨ b + size ≤ p) ∧ Proper xor b size (done + x.length) ops
  | done, .space x :: ops => xor = false ∧ x.length ≤ size - done ∧ Proper xor b size (done + x.length) ops

/-- What the sink has after `done` bytes were put, of which `x` is the list. -/
structure Inv (xor : Bool) (orig : List Byte) (b size : Nat) (x : List Byte) (m : Mem) (s : Sink) : Prop where
  sink : s = ⟨some b, size, min x.length size⟩
  content : load m b size = (if xor then xorBytes (orig.take x.length) (x.take size) else x.take size) ++ orig.drop x.length

theorem take_append_min {α : Type} (x y : List α) (n : Nat) : (x ++ y).take n = x.take n ++ y.take (n - x.length) := List.take_append

theorem part_length (xor : Bool) (orig x : List Byte) (size : Nat) (ho : orig.length = size) :
    (if xor then xorBytes (orig.take x.length) (x.take size) else x.take size).length = min x.length size := by
  cases xor
  · simp [Nat.min_comm]
  · simp [ho] <;> omega

/-- What the sink writes when `y` comes after `x`. -/
def piece (xor : Bool) (orig : List Byte) (size : Nat) (x y : List Byte) : List Byte :=
  if xor then xorBytes ((orig.drop x.length).take y.length) (y.take (size - x.length)) else y.take (size - x.length)

theorem write_inv (xor : Bool) (orig : List Byte) (b size : Nat) (ho : orig.length = size) (x y : List Byte) (m : Mem) (s : Sink) (h : Inv xor orig b size x m s) :
    Inv xor orig b size (x ++ y) (store m (b + min x.length size) (piece xor orig size x y)) ⟨some b, size, min x.length size + min y.length (size - x.length)⟩ := by
  obtain ⟨hs, hc⟩ := h
  have hpl := part_length xor orig x size ho
  refine ⟨?_, ?_⟩
  · simp only [List.length_append, Sink.mk.injEq, true_and]; omega
  · generalize hD : piece xor orig size x y = D
    have hDl : D.length = min y.length (size - x.length) := by
      rw [← hD, piece]; cases xor
      · simp [Nat.min_comm]
      · simp [ho] <;> omega
    have hsplit : size = min x.length size + (D.length + (size - (min x.length size + D.length))) := by omega
    have hall : load (store m (b + min x.length size) D) b size = (load m b size).take (min x.length size) ++ (D ++ (load m b size).drop (min x.length size + D.length)) := by
      generalize hk : min x.length size = k at hsplit ⊢
      conv => lhs; rw [hsplit]
      rw [load_add, load_add, load_store_disj _ _ _ _ _ (.inr (Nat.le_refl _)), load_store, load_store_disj _ _ _ _ _ (.inl (Nat.le_refl _)), load_take _ _ _ _ (by omega), load_drop _ _ _ _ (by omega), Nat.add_assoc]
    rw [hall, hc, List.take_append_of_le_length (by omega), List.take_of_length_le (by omega), List.drop_append, List.drop_eq_nil_of_le (by omega), List.nil_append, hpl, List.drop_drop, ← List.append_assoc]
    have hdrop : orig.drop (x.length + (min x.length size + D.length - min x.length size)) = orig.drop (x ++ y).length := by
      by_cases hx : x.length + y.length ≤ size
      · congr 1; simp only [List.length_append]; omega
      · rw [List.drop_eq_nil_of_le (by omega), List.drop_eq_nil_of_le (by simp only [List.length_append]; omega)]
    rw [hdrop]
    congr 1
    rw [← hD, piece]
    cases xor with
    | false => simp [List.take_append]
    | true =>
      simp only [if_true]
      rw [List.length_append, List.take_append, List.take_add]
      by_cases hx : x.length ≤ size
      · rw [xorBytes_append _ _ _ _ (by simp; omega)]
      · have h1 : orig.drop x.length = [] := List.drop_eq_nil_of_le (by omega)
        have h2 : size - x.length = 0 := by omega
        rw [h1, h2]; simp [xorBytes]

theorem put_eq (xor : Bool) (orig : List Byte) (b size : Nat) (ho : orig.length = size) (x y : List Byte) (m : Mem) (s : Sink) (h : Inv xor orig b size x m s)
    (p : Nat) (hp : load m p y.length = y) :
    put2 xor m s (some p) y.length = (store m (b + min x.length size) (piece xor orig size x y), ⟨some b, size, min x.length size + min y.length (size - x.length)⟩, y.length - (size - x.length)) := by
  obtain ⟨hs, hc⟩ := h
  subst hs
  have hpl := part_length xor orig x size ho
  simp only [put2]
  have hcop : min y.length (size - min x.length size) = min y.length (size - x.length) := by omega
  rw [hcop]
  have hld : load m p (min y.length (size - x.length)) = y.take (size - x.length) := by
    rw [← load_take m p y.length _ (by omega), hp, List.take_eq_take_min]
    conv => rhs; rw [List.take_eq_take_min]
    congr 1; omega
  have hold : load m (b + min x.length size) (min y.length (size - x.length)) = (orig.drop x.length).take y.length := by
    have h1 := load_drop m b size (min x.length size) (by omega)
    have h2 := load_take m (b + min x.length size) (size - min x.length size) (min y.length (size - x.length)) (by omega)
    rw [← h2, ← h1, hc, List.drop_append, hpl, Nat.sub_self, List.drop_zero, List.drop_eq_nil_of_le (by rw [hpl]; omega), List.nil_append, List.take_eq_take_min]
    conv => rhs; rw [List.take_eq_take_min]
    congr 1
    simp only [List.length_drop]; omega
  rw [hld, hold, piece]
  congr 2
  omega

theorem store_store (m : Mem) (a : Nat) (x : List Byte) : store (store m a x) a x = store m a x := by
  funext i
  simp only [store]
  split <;> rfl

theorem space_eq (b size : Nat) (x y : List Byte) (m : Mem) (orig : List Byte) (s : Sink) (h : Inv false orig b size x m s) (hy : y.length ≤ size - x.length) :
    step false m s (.space y) = (store m (b + min x.length size) (piece false orig size x y), ⟨some b, size, min x.length size + min y.length (size - x.length)⟩, y.length - (size - x.length)) := by
  rw [h.sink]
  have hcop : min y.length (size - min x.length size) = y.length := by omega
  simp only [step, createPutSpace, Option.map_some, put2, hcop, load_store, piece, Bool.false_eq_true, if_false, List.take_of_length_le hy, store_store]
  congr 2
  · congr 1; omega
  · omega

theorem store_disj_inv (xor : Bool) (orig : List Byte) (b size : Nat) (x : List Byte) (m : Mem) (s : Sink) (h : Inv xor orig b size x m s) (p : Nat) (y : List Byte)
    (hd : p + y.length ≤ b ∨ b + size ≤ p) : Inv xor orig b size x (store m p y) s :=
  ⟨h.sink, by rw [load_store_disj _ _ _ _ _ (by omega)]; exact h.content⟩

theorem step_inv (xor : Bool) (orig : List Byte) (b size : Nat) (ho : orig.length = size) (op : Op) (ops : List Op) (x : List Byte) (m : Mem) (s : Sink) (h : Inv xor orig b size x m s)
    (hp : Proper xor b size x.length (op :: ops)) :
    Inv xor orig b size (x ++ op.data) (step xor m s op).1 (step xor m s op).2.1 ∧ (step xor m s op).2.2 = op.data.length - (size - x.length) ∧ Proper xor b size (x ++ op.data).length ops := by
  cases op with
  | put p y =>
    obtain ⟨hd, hr⟩ := hp
    have hi := store_disj_inv xor orig b size x m s h p y hd
    have e := put_eq xor orig b size ho x y (store m p y) s hi p (load_store _ _ _)
    simp only [step, Op.data]
    rw [e]
    exact ⟨write_inv xor orig b size ho x y _ s hi, rfl, by simpa using hr⟩
  | space y =>
    obtain ⟨hx, hd, hr⟩ := hp
    subst hx
    rw [space_eq b size x y m orig s h hd]
    exact ⟨write_inv false orig b size ho x y _ s h, rfl, by simpa [Op.data] using hr⟩

/-- The numbers that `Put` should return: of each call, the bytes for which there was no room. -/
def refused (size : Nat) : Nat → List Op → List Nat
  | _, [] => []
  | done, op :: ops => (op.data.length - (size - done)) :: refused size (done + op.data.length) ops

theorem run_inv (xor : Bool) (orig : List Byte) (b size : Nat) (ho : orig.length = size) (ops : List Op) : ∀ (x : List Byte) (m : Mem) (s : Sink), Inv xor orig b size x m s → Proper xor b size x.length ops →
    Inv xor orig b size (x ++ ops.flatMap Op.data) (run xor m s ops).1 (run xor m s ops).2.1 ∧ (run xor m s ops).2.2 = refused size x.length ops := by
  induction ops with
  | nil => intro x m s h _; exact ⟨by simpa [run] using h, rfl⟩
  | cons op ops ih =>
    intro x m s h hp
    obtain ⟨h1, h2, h3⟩ := step_inv xor orig b size ho op ops x m s h hp
    have := ih _ _ _ h1 h3
    rw [List.flatMap_cons, ← List.append_assoc]
    refine ⟨this.1, ?_⟩
    simp only [run, refused]
    rw [this.2, h2, List.length_append]

theorem start (xor : Bool) (m : Mem) (b size : Nat) : Inv xor (load m b size) b size [] m (make b size) :=
  ⟨by simp [make], by cases xor <;> simp [xorBytes]⟩

/-- **The buffer holds the first bytes that were put.** Whatever calls were made, in pieces of any lengths, with the caller's own memory or with the space the sink gave: the buffer begins with the first `size` bytes of all that was put, after these it is as it was, the reported length is the number of bytes kept, the space offered is the rest of the buffer, and each `Put` returns the number of its bytes that had no room. -/
theorem sink_keeps (m : Mem) (b size : Nat) (ops : List Op) (hp : Proper false b size 0 ops) :
    let x := ops.flatMap Op.data
    let r := run false m (make b size) ops
    load r.1 b size = x.take size ++ (load m b size).drop x.length ∧
    totalPutLength r.2.1 = min x.length size ∧ availableSize r.2.1 = size - x.length ∧
    createPutSpace r.2.1 = (some (b + min x.length size), size - x.length) ∧
    r.2.2 = refused size 0 ops := by
  obtain ⟨h, hr⟩ := run_inv false (load m b size) b size (by simp) ops [] m _ (start false m b size) hp
  refine ⟨by simpa using h.content, ?_, ?_, ?_, hr⟩
  · rw [totalPutLength, h.sink]; simp
  · rw [availableSize, h.sink]; simp only [List.nil_append]; omega
  · rw [createPutSpace, h.sink]; simp only [List.nil_append, Option.map_some, Prod.mk.injEq, true_and]; omega

/-- **The XOR sink.** It adds the first `size` bytes that were put to what the buffer held. -/
theorem xorSink_adds (m : Mem) (b size : Nat) (ops : List Op) (hp : Proper true b size 0 ops) :
    let x := ops.flatMap Op.data
    let r := run true m (make b size) ops
    load r.1 b size = xorBytes ((load m b size).take x.length) (x.take size) ++ (load m b size).drop x.length ∧
    totalPutLength r.2.1 = min x.length size ∧ r.2.2 = refused size 0 ops := by
  obtain ⟨h, hr⟩ := run_inv true (load m b size) b size (by simp) ops [] m _ (start true m b size) hp
  refine ⟨by simpa using h.content, ?_, hr⟩
  rw [totalPutLength, h.sink]; simp

/-- **Nothing else is written.** In any state a `Put`, of any length and from anywhere, changes only memory between `total` and `size` in the buffer. -/
theorem put_frame (xor : Bool) (m : Mem) (s : Sink) (p : Option Nat) (n i : Nat)
    (hi : ∀ b, s.buf = some b → s.total ≤ s.size → i < b + s.total ∨ b + s.size ≤ i) (hs : s.total ≤ s.size) :
    (put2 xor m s p n).1 i = m i := by
  obtain ⟨buf, size, total⟩ := s
  cases buf with
  | none => rfl
  | some b =>
    cases p with
    | none => rfl
    | some p =>
      have := hi b rfl hs
      simp only [put2]
      apply store_out
      simp only at this hs
      cases xor <;> simp <;> omega

/-- Without a buffer, or without data, everything is returned and nothing happens. -/
theorem put_null (xor : Bool) (m : Mem) (s : Sink) (p : Option Nat) (n : Nat) (h : s.buf = none ∨ p = none) : put2 xor m s p n = (m, s, n) := by
  obtain ⟨buf, size, total⟩ := s
  rcases h with h | h
  · simp only at h; subst h; rfl
  · subst h; cases buf <;> rfl

/-- **A new buffer is filled from where the old one ended.** Initialising a sink again gives it the new buffer and size but keeps the count: the first byte put goes to the place after as many bytes as were put before, and the beginning of the new buffer stays as it was. -/
theorem reinit_keeps_count (m : Mem) (s : Sink) (b size p : Nat) (v : Byte) (h : s.total < size) (hv : m p = v) :
    (put2 false m (reinit s b size) (some p) 1).1 (b + s.total) = v ∧
    ∀ i, i < b + s.total → (put2 false m (reinit s b size) (some p) 1).1 i = m i := by
  have hc : min 1 (size - s.total) = 1 := by omega
  refine ⟨?_, fun i hi => ?_⟩
  · simp [put2, reinit, hc, store, load, hv]
  · simp only [put2, reinit, hc]
    exact store_out _ _ _ _ (.inl hi)

/-- And when more was put before than the new buffer holds, the sink takes nothing. -/
theorem reinit_full (m : Mem) (s : Sink) (b size p n : Nat) (h : size ≤ s.total) :
    (put2 false m (reinit s b size) (some p) n).2.2 = n := by
  simp only [put2, reinit]; omega

/-- Three pieces into five bytes: one from elsewhere, one through the sink's own space, one that does not fit. -/
def demo : List Op := [.put 100 [1, 2], .space [3, 4], .put 200 [5, 6, 7]]

example : Proper false 0 5 0 demo := by simp [demo, Proper]
example : (run false (fun _ => 0) (make 0 5) demo).2.2 = [0, 0, 2] := by decide +kernel
example : load (run false (fun _ => 0) (make 0 5) demo).1 0 5 = [1, 2, 3, 4, 5] := by decide +kernel
example : Proper true 0 3 0 [.put 100 [1, 2]] := by simp [Proper]
example : load (run true (fun _ => 7) (make 0 3) [.put 100 [1, 2]]).1 0 3 = [6, 5, 7] := by decide +kernel

end Verif.ArraySink

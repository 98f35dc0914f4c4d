import Verif.Ida.Secrecy
import Verif.Ida.Disperse
import Verif.Queue.Model

/-! # C35: secret sharing and information dispersal -/
namespace Verif.Ida
open Verif.MQueue Verif.Gf

/-- The shares with numbers `0 ..< n`. -/
def shareNumbers (n : Nat) : List W32 := (List.range n).map (BitVec.ofNat 32)

theorem mem_numbers {n : Nat} (hn : n ≤ 2 ^ 32) {id : W32} (h : id.toNat < n) : id ∈ shareNumbers n := by
  refine List.mem_map.mpr ⟨id.toNat, List.mem_range.mpr h, ?_⟩
  apply BitVec.eq_of_toNat_eq
  rw [BitVec.toNat_ofNat, Nat.mod_eq_of_lt id.isLt]

/-- **Any `t` of the `n` shares give the secret back.** `SecretSharing` takes a message in any pieces and sends a share on each of the
channels `0 ..< n`, and a message end after it. From any `t` distinct shares, delivered in any pieces and in any order between the
channels, `SecretRecovery` puts out exactly the message (with padding off, the message with zeros up to a multiple of 4 bytes), and then
a message end. Both are ready for the next message afterwards. The last four bytes come from the queue in one piece, or the message does
not end in `1 0 … 0`. -/
theorem secret_sharing_recovers (fastRotate : Bool) (t n : Nat) (ht : 0 < t) (ht2 : t ≤ 2 ^ 32) (hn : n ≤ 2 ^ 32) (pad prop prop' : Bool)
    (cut split : List Byte → List (List Byte)) (hsplit : ∀ q, (split q).flatten = q)
    (s : Ida) (hs : Ready (shareNumbers n) s) (rng : Nat → Byte) (pos fuel : Nat) (hfuel : 4 ≤ fuel) (pieces : List (List Byte))
    (hgood : (∀ q, q.length = 4 → split q = [q]) ∨ ¬ Padded pieces.flatten) :
    ∃ s' share, Sharing.message (gf32 fastRotate) ⟨.raw, t, prop, cut⟩ rng fuel pad pieces ⟨s, pos⟩ = .ok s' ∧ Ready (shareNumbers n) s'.ida ∧
      (∀ ch, received ch s'.ida.sink.out = received ch s.sink.out ++
        match ch with
        | some id => if id.toNat < n then (share id).map some ++ (if prop then [none] else []) else []
        | none => []) ∧
      ∀ (ids : List W32), ids.Nodup → ids.length = t → (∀ id ∈ ids, id.toNat < n) →
      ∀ (r : Ida), Ready [0xffffffff] r → ∀ (h : List Call), Delivers ids share h →
      ∃ r', r.run (gf32 fastRotate) ⟨.secret pad, t, prop', split⟩ h = .ok r' ∧ Ready [0xffffffff] r' ∧
        r'.sink.out = r.sink.out ++
          ((pieces.flatten ++ if pad then [] else List.replicate ((4 - pieces.flatten.length % 4) % 4) 0).map some ++ if prop' then [none] else []).map (fun x => (none, x)) := by
  obtain ⟨f, hf, hf1, hf2⟩ := share_polys rng t pos ht ht2 (padded pad pieces.flatten) (chunkList pad pieces)
  obtain ⟨s', e, hr, hout⟩ := share_message fastRotate (cfg := ⟨.raw, t, prop, cut⟩) rfl ht ht2 (range_ids_nodup n hn) hs rng pos fuel hfuel pad pieces f hf
    (fun k _ => hf1 k) (fun k _ => hf2 k)
  refine ⟨_, fun id => strm (Ida.polys f (((padded pad pieces.flatten).length + 3) / 4)) id, e, hr, ?_, ?_⟩
  · intro ch
    rw [hout, List.append_assoc]
    congr 1
    cases ch with
    | none => rfl
    | some id =>
      simp only [carried, endTok]
      have hm : id ∈ (List.range n).map (BitVec.ofNat 32) ↔ id.toNat < n := by
        refine ⟨fun h => ?_, mem_numbers hn⟩
        obtain ⟨i, hi, rfl⟩ := List.mem_map.mp h
        have := List.mem_range.mp hi
        rw [BitVec.toNat_ofNat, Nat.mod_eq_of_lt (by omega)]; exact this
      simp only [shareNumbers, hm]
      by_cases hi : id.toNat < n
      · simp [hi]
      · simp [hi]
  · intro ids hnd hids _ r hrr h hd
    exact secret_recover fastRotate (cfg := ⟨.secret pad, t, prop', split⟩) rfl ht hsplit hrr pieces.flatten hgood f hf hf1 hnd hids (fun _ _ => rfl) hd

/-- **Fewer than `t` shares say nothing about the secret.** Whatever the message, any contents of any `t - 1` shares are obtained with
exactly one stream of random bytes. So with uniformly random bytes the `t - 1` shares are uniformly distributed, the same for every
message of the same length. -/
theorem secret_sharing_hides (fastRotate : Bool) (t n : Nat) (ht : 0 < t) (ht2 : t ≤ 2 ^ 32) (hn : n < 2 ^ 32) (pad prop : Bool) (cut : List Byte → List (List Byte))
    (s : Ida) (hs : Ready (shareNumbers n) s) (pos fuel : Nat) (hfuel : 4 ≤ fuel) (pieces : List (List Byte)) (hlen : pad = true ∨ pieces.flatten.length % 4 = 0)
    (ids : List W32) (hids : ids.Nodup) (hl : ids.length + 1 = t) (hm : ∀ id ∈ ids, id.toNat < n)
    (view : W32 → List Byte) (hv : ∀ id ∈ ids, (view id).length = pieces.flatten.length + if pad then 4 - pieces.flatten.length % 4 else 0) :
    let sees := fun rng : Nat → Byte => ∃ s', Sharing.message (gf32 fastRotate) ⟨.raw, t, prop, cut⟩ rng fuel pad pieces ⟨s, pos⟩ = .ok s' ∧
      ∀ id ∈ ids, received (some id) s'.ida.sink.out = received (some id) s.sink.out ++ (view id).map some ++ if prop then [none] else []
    ∃ rng, sees rng ∧ ∀ rng', sees rng' →
      ∀ x < (t - 1) * (pieces.flatten.length + if pad then 4 - pieces.flatten.length % 4 else 0), rng' (pos + x) = rng (pos + x) := by
  have hp : (padded pad pieces.flatten).length = pieces.flatten.length + if pad then 4 - pieces.flatten.length % 4 else 0 := by
    unfold padded
    rw [List.length_append]
    cases pad with
    | false => simp
    | true =>
      simp only [if_true, List.length_cons, List.length_replicate]
      omega
  have h4 : (padded pad pieces.flatten).length = 4 * ((padded pad pieces.flatten).length / 4) := by
    rw [hp]
    cases pad with
    | false =>
      have : pieces.flatten.length % 4 = 0 := hlen.resolve_left (by simp)
      simp only [Bool.false_eq_true, if_false]
      omega
    | true => simp only [if_true]; omega
  have := views fastRotate (cfg := ⟨.raw, t, prop, cut⟩) rfl ht ht2 (range_ids_nodup n (by omega)) hs pos fuel hfuel pad pieces _ h4 hids hl (fun id h => mem_numbers (by omega) (hm id h))
    (fun h => by have := hm _ h; simp at this; omega) view (fun id h => by rw [← h4, hp]; exact hv id h)
  rw [← h4, hp] at this
  exact this

/-- **Any `t` of the `n` pieces give the data back**, for a dispersal that starts at its first channel. With padding off, zeros follow up
to a multiple of `4 t` bytes. The last `4 t` bytes come from the queue in one piece, or the message does not end in `1 0 … 0`. -/
theorem information_dispersal_recovers_partial (fastRotate : Bool) (t n : Nat) (ht : 0 < t) (ht2 : t ≤ 2 ^ 32) (hn : n ≤ 2 ^ 32) (pad prop prop' : Bool)
    (cut split : List Byte → List (List Byte)) (hsplit : ∀ q, (split q).flatten = q)
    (s : Ida) (hs : Ready (shareNumbers n) s) (pieces : List (List Byte))
    (hgood : (∀ q, q.length = 4 * t → split q = [q]) ∨ ¬ Padded pieces.flatten) :
    ∃ s' share, Dispersal.message (gf32 fastRotate) ⟨.raw, t, prop, cut⟩ pad pieces ⟨s, 0⟩ = .ok s' ∧ Ready (shareNumbers n) s'.ida ∧
      s'.next = (pieces.flatten.length + if pad then 1 else 0) % t ∧
      (∀ ch, received ch s'.ida.sink.out = received ch s.sink.out ++
        match ch with
        | some id => if id.toNat < n then (share id).map some ++ (if prop then [none] else []) else []
        | none => []) ∧
      ∀ (ids : List W32), ids.Nodup → ids.length = t → (∀ id ∈ ids, id.toNat < n) →
      ∀ (r : Ida), Ready (shareNumbers t) r → ∀ (h : List Call), Delivers ids share h →
      ∃ r' z, r.run (gf32 fastRotate) ⟨.info pad, t, prop', split⟩ h = .ok r' ∧ Ready (shareNumbers t) r' ∧
        z < 4 * t ∧ (pieces.flatten.length + z) % (4 * t) = 0 ∧
        r'.sink.out = r.sink.out ++
          ((pieces.flatten ++ if pad then [] else List.replicate z 0).map some ++ if prop' then [none] else []).map (fun x => (none, x)) := by
  obtain ⟨f, m, s', hf, hf2, e, hr, hout, h1, h2⟩ := disperse_message fastRotate (cfg := ⟨.raw, t, prop, cut⟩) rfl ht ht2 (range_ids_nodup n hn) hs pad pieces
  refine ⟨_, fun id => strm (Ida.polys f m) id, e, hr, ?_, ?_, ?_⟩
  · unfold marked; cases pad <;> simp
  · intro ch
    show received ch s'.sink.out = _
    rw [hout, List.append_assoc]
    congr 1
    cases ch with
    | none => rfl
    | some id =>
      simp only [carried, endTok]
      have hm : id ∈ (List.range n).map (BitVec.ofNat 32) ↔ id.toNat < n := by
        refine ⟨fun h => ?_, mem_numbers hn⟩
        obtain ⟨i, hi, rfl⟩ := List.mem_map.mp h
        have := List.mem_range.mp hi
        rw [BitVec.toNat_ofNat, Nat.mod_eq_of_lt (by omega)]; exact this
      simp only [shareNumbers, hm]
      by_cases hi : id.toNat < n
      · simp [hi]
      · simp [hi]
  · intro ids hnd hids _ r hrr h hd
    exact info_recover fastRotate (cfg := ⟨.info pad, t, prop', split⟩) rfl ht hsplit hrr pieces.flatten hgood f m hf hf2 h1 h2 hnd hids (fun _ _ => rfl) hd

/-- **Further shares are ignored**: once `t` channels have been seen, a call on another one changes nothing until the message is
complete. So the theorems above also hold when calls on other channels come in between. -/
theorem extra_share_ignored (R : RingOps W32) (cfg : Cfg) (s : Ida) (hs : s.inIds.length = cfg.threshold) (c : Call) (hc : c.id ∉ s.inIds) :
    s.channelData R cfg c.id c.bytes c.last = .ok s := by
  simp [Ida.channelData, Ida.insert, hc, hs]

/-! ## The hypotheses are met, and the programs run -/

/-- New objects are ready. -/
example (n : Nat) : Ready (shareNumbers n) (Ida.init (shareNumbers n)) := init_ready _

/-- Random bytes for the examples. -/
def exRng (i : Nat) : Byte := BitVec.ofNat 8 (i * 37 + 11)

/-- Three shares of `5 6 7 8 9` with threshold 2, the secret given in two pieces. -/
def exShares : Except Err (List (W32 × List Tok)) :=
  match Sharing.message (gf32 true) ⟨.raw, 2, true, fun l => [l]⟩ exRng 4 true [[5, 6, 7], [8, 9]] ⟨Ida.init (shareNumbers 3), 0⟩ with
  | .error e => .error e
  | .ok s => .ok ((shareNumbers 3).map fun id => (id, received (some id) s.ida.sink.out))

def exShare (i : W32) : List Byte :=
  match exShares with
  | .error _ => []
  | .ok l => ((l.map Prod.snd).getD i.toNat []).filterMap id

/-- Recovery from shares 2 and 0, the pieces interleaved. -/
example : (match (Ida.init [0xffffffff]).run (gf32 true) ⟨.secret true, 2, true, fun l => [l]⟩
      [⟨2, (exShare 2).take 3, false⟩, ⟨0, exShare 0, true⟩, ⟨2, (exShare 2).drop 3, true⟩] with
    | .error e => .error e
    | .ok r => .ok r.sink.out) = (.ok [(none, some 5), (none, some 6), (none, some 7), (none, some 8), (none, some 9), (none, none)] : Except Err (List Ev)) := by
  decide +kernel

example : Delivers [2, 0] exShare [⟨2, (exShare 2).take 3, false⟩, ⟨0, exShare 0, true⟩, ⟨2, (exShare 2).drop 3, true⟩] := by
  refine ⟨by simp, ?_⟩
  intro id h
  simp only [List.mem_cons, List.not_mem_nil, or_false] at h
  rcases h with rfl | rfl
  · exact ⟨by simp [bytesOf, callsOf], [⟨2, (exShare 2).take 3, false⟩], ⟨2, (exShare 2).drop 3, true⟩, by simp [callsOf], rfl, by simp⟩
  · exact ⟨by simp [bytesOf, callsOf], [], ⟨0, exShare 0, true⟩, by simp [callsOf], rfl, by simp⟩

/-- A third share in between. -/
example : (match (Ida.init [0xffffffff]).run (gf32 true) ⟨.secret true, 2, true, fun l => [l]⟩
      [⟨2, (exShare 2).take 3, false⟩, ⟨0, (exShare 0).take 1, false⟩, ⟨1, exShare 1, true⟩, ⟨0, (exShare 0).drop 1, true⟩, ⟨2, (exShare 2).drop 3, true⟩] with
    | .error e => .error e
    | .ok r => .ok r.sink.out) = (.ok [(none, some 5), (none, some 6), (none, some 7), (none, some 8), (none, some 9), (none, none)] : Except Err (List Ev)) := by
  decide +kernel

/-! ## Where the code does not do what is expected -/

/-- Two messages through one `InformationDispersal` (threshold 2, padding on), and the second recovered by a new `InformationRecovery`. -/
def exSecond (m1 m2 : List Byte) : Except Err (List Ev) :=
  match Dispersal.message (gf32 true) ⟨.raw, 2, true, fun l => [l]⟩ true [m1] ⟨Ida.init (shareNumbers 2), 0⟩ with
  | .error e => .error e
  | .ok s1 =>
    match Dispersal.message (gf32 true) ⟨.raw, 2, true, fun l => [l]⟩ true [m2] s1 with
    | .error e => .error e
    | .ok s2 =>
      let share := fun id : W32 => ((received (some id) s2.ida.sink.out).drop (received (some id) s1.ida.sink.out).length).filterMap (fun t => t)
      match (Ida.init (shareNumbers 2)).run (gf32 true) ⟨.info true, 2, true, fun l => [l]⟩ [⟨0, share 0, true⟩, ⟨1, share 1, true⟩] with
      | .error e => .error e
      | .ok r => .ok r.sink.out

/-- **`m_nextChannel` is not reset at a message end** (ida.cpp:334-341): after a message whose padded length is not a multiple of the
threshold, the next message is recovered wrongly: `7` comes back as `1 7 0 0 0 0 0 0`. -/
theorem second_message_rotated : exSecond [5, 6] [7] = .ok (([some 1, some 7, some 0, some 0, some 0, some 0, some 0, some 0, none] : List Tok).map fun t => (none, t)) := by
  decide +kernel

/-- After a message of suitable length the second one is fine. -/
theorem second_message_aligned : exSecond [5] [7] = .ok (([some 7, none] : List Tok).map fun t => (none, t)) := by decide +kernel

/-- **A cut between pieces hides the padding** (ida.cpp:384-398): a `1` at the end of one piece and the padding's `1` at the start of the
next are both put out, in one piece the padding is removed. -/
theorem padding_kept_at_cut : removePadding [[9, 9, 9, 1], [1, 0, 0, 0]] = [9, 9, 9, 1, 1, 0, 0, 0] ∧ removePadding [[9, 9, 9, 1, 1, 0, 0, 0]] = [9, 9, 9, 1] := by
  decide

/-- Exactly the cuts between such a `1` and the padding do this. -/
theorem padding_removed_without_bad_cut (pieces : List (List Byte)) (m : List Byte) (z : Nat) (h : pieces.flatten = m ++ 1 :: List.replicate z 0)
    (hb : ¬ BadCut pieces) : removePadding pieces = m := removePadding_exact pieces m z h hb

/-- `InformationRecovery`'s queue gets a byte at a time (ida.cpp:356-357); its content, node by node, after `n` bytes in and `k` out. -/
def nodesAfter (n k : Nat) : Except Err (List Nat) :=
  let rec put : Nat → Verif.Queue.BQ → Except Err Verif.Queue.BQ
    | 0, q => .ok q
    | f + 1, q => match q.put [BitVec.ofNat 8 7] with | .error e => .error e | .ok q => put f q
  match put n (Verif.Queue.BQ.init 0) with
  | .error e => .error e
  | .ok q => let r := (q.transferTo k).2; .ok ((r.hd :: r.tl).map Verif.Queue.Node.currentSize)

/-- Such cuts happen: with threshold 3 and a 264-byte stream, 252 bytes are passed on and the last 12 lie in two nodes, 4 and 8 bytes. -/
theorem queue_cuts_tail : nodesAfter 264 252 = .ok [4, 8] := by decide +kernel

/-- The last 12 bytes with that cut: a message ending in `1` comes back with its padding. Threshold 3, the message given is the last four
bytes `9 9 9 1`. -/
def exCut (split : List Byte → List (List Byte)) : Except Err (List Ev) :=
  match Dispersal.message (gf32 true) ⟨.raw, 3, true, fun l => [l]⟩ true [[9, 9, 9, 1]] ⟨Ida.init (shareNumbers 3), 0⟩ with
  | .error e => .error e
  | .ok s =>
    let share := fun id : W32 => (received (some id) s.ida.sink.out).filterMap (fun t => t)
    match (Ida.init (shareNumbers 3)).run (gf32 true) ⟨.info true, 3, true, split⟩ [⟨0, share 0, true⟩, ⟨1, share 1, true⟩, ⟨2, share 2, true⟩] with
    | .error e => .error e
    | .ok r => .ok r.sink.out

theorem recovery_keeps_padding_at_node_boundary :
    exCut (fun q => [q.take 4, q.drop 4]) = .ok (([9, 9, 9, 1, 1, 0, 0, 0, 0, 0, 0, 0].map some ++ [none] : List Tok).map fun t => (none, t)) ∧
    exCut (fun q => [q]) = .ok (([9, 9, 9, 1].map some ++ [none] : List Tok).map fun t => (none, t)) := by
  decide +kernel

end Verif.Ida

import Verif.Proof.Codec

/-!
# Lemmas about char streams
-/

namespace Id3

open Spec

/-- A stream positioned between `pre` and `post`. -/
def csAt (pre post : Bytes) : CharStream :=
  { stream := pre ++ post, cursor := pre.length, size := (pre ++ post).length }

/-- A fresh output stream: `done` was written, `room` zero bytes are left. -/
def csOut (done : Bytes) (room : Nat) : CharStream :=
  { stream := done ++ List.replicate room (some 0), cursor := done.length, size := (done.length + room : Nat) }

theorem clamp_mid {v lo hi : Int} (h1 : lo ≤ v) (h2 : v ≤ hi) : clamp_int v lo hi = v := by
  unfold clamp_int; rw [if_neg (by omega), if_neg (by omega)]

theorem get_cur_csAt (pre post : Bytes) : CharStream_get_cur (csAt pre post) = .ok post := by
  simp [CharStream_get_cur, csAt]; omega

theorem read_csAt (pre d post : Bytes) (n : Int) (h : n = d.length) :
    CharStream_read (csAt pre (d ++ post)) n = .ok (d, csAt (pre ++ d) post) := by
  unfold CharStream_read
  have hc : clamp_int n 0 ((csAt pre (d ++ post)).size - (csAt pre (d ++ post)).cursor) = n := by
    apply clamp_mid
    · omega
    · simp [csAt]; omega
  simp only [hc, get_cur_csAt, Res.bind_ok, memcpySrc_append _ _ _ h]
  simp [csAt, h]

theorem read_csAt' (pre d post : Bytes) (n : Int) (x : Bytes) (hx : x = d ++ post) (h : n = d.length) :
    CharStream_read (csAt pre x) n = .ok (d, csAt (pre ++ d) post) := by
  subst hx; exact read_csAt pre d post n h

theorem getc_csAt [Platform] (pre post : Bytes) (b : UInt8) :
    CharStream_getc (csAt pre (some b :: post)) = .ok (charToInt b, csAt (pre ++ [some b]) post) := by
  unfold CharStream_getc
  have : ¬ (csAt pre (some b :: post)).cursor ≥ (csAt pre (some b :: post)).size := by
    simp [csAt]; omega
  rw [if_neg this, get_cur_csAt]
  simp [csAt]

theorem seek_fwd_csAt (pre d post : Bytes) (n : Int) (h : n = d.length)
    (hb : pre.length + d.length ≤ 2147483647) :
    CharStream_seek (csAt pre (d ++ post)) n .cur = .ok (csAt (pre ++ d) post) := by
  unfold CharStream_seek
  subst h
  simp only [csAt]
  rw [ck_ok (by omega) (by omega)]
  simp only [Res.bind_ok, Res.pure_eq]
  rw [clamp_mid (by omega) (by simp; omega)]
  simp

theorem seek_back_csAt (pre d post : Bytes) (n : Int) (h : n = -(d.length : Int))
    (hb : pre.length + d.length ≤ 2147483647) :
    CharStream_seek (csAt (pre ++ d) post) n .cur = .ok (csAt pre (d ++ post)) := by
  unfold CharStream_seek
  subst h
  simp only [csAt, List.length_append]
  rw [ck_ok (by omega) (by omega)]
  simp only [Res.bind_ok, Res.pure_eq]
  rw [clamp_mid (by omega) (by omega)]
  simp
  omega

theorem slice_csAt (pre d post : Bytes) (n : Int) (h : n = d.length)
    (hb : pre.length + d.length ≤ 2147483647) :
    CharStream_slice (csAt pre (d ++ post)) n = .ok (d ++ post, csAt (pre ++ d) post) := by
  unfold CharStream_slice
  subst h
  rw [get_cur_csAt]
  simp only [csAt, Res.bind_ok]
  rw [ck_ok (by omega) (by omega)]
  simp

theorem CharStream_new_csOut (n : Int) (m : Nat) (h : n = m) : CharStream_new n = csOut [] m := by
  subst h; simp [CharStream_new, csOut]

theorem write_csOut (done d rest : Bytes) (room : Nat) (n : Int) (h : n = d.length) (hr : d.length ≤ room)
    (hb : done.length + d.length ≤ 2147483647) :
    CharStream_write (csOut done room) (d ++ rest) n = .ok (csOut (done ++ d) (room - d.length)) := by
  unfold CharStream_write
  subst h
  have hg : CharStream_get_cur (csOut done room) = .ok (List.replicate room (some 0)) := by
    simp [CharStream_get_cur, csOut]; omega
  rw [hg, memcpySrc_append _ _ _ rfl]
  simp only [Res.bind_ok, List.length_replicate]
  rw [if_neg (by omega)]
  simp only [csOut]
  rw [ck_ok (by omega) (by omega)]
  simp
  omega

theorem write_csOut' (done d : Bytes) (room : Nat) (n : Int) (h : n = d.length) (hr : d.length ≤ room)
    (hb : done.length + d.length ≤ 2147483647) :
    CharStream_write (csOut done room) d n = .ok (csOut (done ++ d) (room - d.length)) := by
  have := write_csOut done d [] room n h hr hb
  simpa using this

/-- Not enough room: the write is out of bounds. -/
theorem write_csOut_oob (done d : Bytes) (room : Nat) (n : Int) (h : n = d.length) (hr : room < d.length) :
    CharStream_write (csOut done room) d n = .ub .oobWrite := by
  unfold CharStream_write
  subst h
  have hg : CharStream_get_cur (csOut done room) = .ok (List.replicate room (some 0)) := by
    simp [CharStream_get_cur, csOut]; omega
  rw [hg, memcpySrc_self _ _ rfl]
  simp only [Res.bind_ok, List.length_replicate]
  rw [if_pos (by omega)]

theorem from_buffer_csAt (p rest : Bytes) (n : Int) (h : n = p.length) :
    CharStream_from_buffer (p ++ rest) n = .ok (csAt [] p) := by
  unfold CharStream_from_buffer
  rw [memcpySrc_append _ _ _ h]
  simp [csAt, h]

theorem intoArray_full (n : Int) (d : Bytes) (h : n = d.length) : intoArray n d = d := by
  simp [intoArray, h]

end Id3

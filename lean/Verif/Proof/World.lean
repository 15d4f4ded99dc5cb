import Verif.Model.World
import Verif.Model.Fault

/-!
# Proofs about the programs on the level of stdio
-/

set_option linter.unusedSimpArgs false

namespace Id3

theorem cio_bind {α β : Type} (m : CIO α) (f : α → CIO β) (e : Faults) (w : Sys) :
    (m >>= f) e w = match m e w with
      | (w', .ok a) => f a e w'
      | (w', .ub k) => (w', .ub k)
      | (w', .exit) => (w', .exit)
      | (w', .diverge) => (w', .diverge) := Eq.trans rfl rfl

theorem cio_ok {α β : Type} {m : CIO α} {f : α → CIO β} {e : Faults} {w w' : Sys} {a : α} (h : m e w = (w', .ok a)) :
    (m >>= f) e w = f a e w' := by rw [cio_bind, h]

theorem cio_ub {α β : Type} {m : CIO α} {f : α → CIO β} {e : Faults} {w w' : Sys} {k : UB} (h : m e w = (w', .ub k)) :
    (m >>= f) e w = (w', .ub k) := by rw [cio_bind, h]

theorem cio_pure {α : Type} (a : α) (e : Faults) (w : Sys) : (pure a : CIO α) e w = (w, .ok a) := Eq.trans rfl rfl

theorem pureRes_run {α : Type} (r : Res α) (e : Faults) (w : Sys) : pureRes r e w = (w, r) := Eq.trans rfl rfl

theorem upd_self {α β : Type} [DecidableEq α] (f : α → β) (a : α) (b : β) : upd f a b a = b := by simp [upd]

theorem upd_ne {α β : Type} [DecidableEq α] (f : α → β) {a i : α} (b : β) (h : i ≠ a) : upd f a b i = f i := by
  simp [upd, h]

theorem attempt_run (e : Faults) (F : Name → File) (S : Nat → Option Stream) (n t : Nat) :
    attempt e ⟨F, S, n, t⟩ = (⟨F, S, n, t + 1⟩, .ok (!e t)) := Eq.trans rfl rfl

theorem newStream_run (s : Stream) (e : Faults) (F : Name → File) (S : Nat → Option Stream) (n t : Nat) :
    newStream s e ⟨F, S, n, t⟩ = (⟨F, upd S n (some s), n + 1, t⟩, .ok (some n)) := Eq.trans rfl rfl

theorem fileNamed_run (name : Name) (e : Faults) (F : Name → File) (S : Nat → Option Stream) (n t : Nat) :
    fileNamed name e ⟨F, S, n, t⟩ = (⟨F, S, n, t⟩, .ok (F name)) := Eq.trans rfl rfl

theorem setFile_run (name : Name) (c : Bytes) (e : Faults) (F : Name → File) (S : Nat → Option Stream) (n t : Nat) :
    setFile name c e ⟨F, S, n, t⟩ = (⟨upd F name (some c), S, n, t⟩, .ok ()) := Eq.trans rfl rfl

theorem setStream_run (h : Nat) (s : Option Stream) (e : Faults) (F : Name → File) (S : Nat → Option Stream) (n t : Nat) :
    setStream h s e ⟨F, S, n, t⟩ = (⟨F, upd S h s, n, t⟩, .ok ()) := Eq.trans rfl rfl

/-- No operation fails. -/
def NoFaults (e : Faults) : Prop := ∀ t, e t = false

/-- Opening an existing file. -/
theorem fopen_existing_run (name : Name) (e : Faults) (F : Name → File) (S : Nat → Option Stream) (n t : Nat) :
    fopen_existing name e ⟨F, S, n, t⟩ =
      if e t = true ∨ F name = none then (⟨F, S, n, t + 1⟩, .ok none)
      else (⟨F, upd S n (some (.named name 0)), n + 1, t + 1⟩, .ok (some n)) := by
  unfold fopen_existing
  simp only [cio_bind, attempt_run]
  cases he : e t
  · cases hF : F name <;> simp [cio_bind, cio_pure, hF, newStream_run, fileNamed_run, setFile_run, setStream_run]
  · simp [cio_bind, cio_pure, newStream_run, fileNamed_run, setFile_run, setStream_run]

/-- Opening and emptying a file. -/
theorem fopen_truncate_run (name : Name) (e : Faults) (F : Name → File) (S : Nat → Option Stream) (n t : Nat) :
    fopen_truncate name e ⟨F, S, n, t⟩ =
      if e t = true then (⟨F, S, n, t + 1⟩, .ok none)
      else (⟨upd F name (some []), upd S n (some (.named name 0)), n + 1, t + 1⟩, .ok (some n)) := by
  unfold fopen_truncate
  simp only [cio_bind, attempt_run]
  cases he : e t <;> simp [cio_bind, cio_pure, newStream_run, fileNamed_run, setFile_run, setStream_run]

theorem tmpfile_run (e : Faults) (F : Name → File) (S : Nat → Option Stream) (n t : Nat) :
    tmpfile e ⟨F, S, n, t⟩ =
      if e t = true then (⟨F, S, n, t + 1⟩, .ok none)
      else (⟨F, upd S n (some (.temp [] 0)), n + 1, t + 1⟩, .ok (some n)) := by
  unfold tmpfile
  simp only [cio_bind, attempt_run]
  cases he : e t <;> simp [cio_bind, cio_pure, newStream_run, fileNamed_run, setFile_run, setStream_run]

theorem tmpfile_ok (e : Faults) (F : Name → File) (S : Nat → Option Stream) (n t : Nat) :
    ∃ S' n' t' a, tmpfile e ⟨F, S, n, t⟩ = (⟨F, S', n', t'⟩, .ok a) ∧ n ≤ n' := by
  rw [tmpfile_run]
  by_cases h : e t = true
  · rw [if_pos h]; exact ⟨_, _, _, _, rfl, Nat.le_refl n⟩
  · rw [if_neg h]; exact ⟨_, _, _, _, rfl, by omega⟩

theorem stream_run {h : Nat} {s : Stream} (e : Faults) {F : Name → File} {S : Nat → Option Stream} {n t : Nat}
    (hs : S h = some s) : stream (some h) e ⟨F, S, n, t⟩ = (⟨F, S, n, t⟩, .ok (h, s)) := by
  unfold stream; simp [hs]

theorem stream_null (e : Faults) (w : Sys) : stream none e w = (w, .ub .nullDeref) := rfl

theorem fclose_run {h : Nat} {s : Stream} (e : Faults) {F : Name → File} {S : Nat → Option Stream} {n t : Nat}
    (hs : S h = some s) : fclose (some h) e ⟨F, S, n, t⟩ = (⟨F, upd S h none, n, t⟩, .ok ()) := by
  unfold fclose
  rw [cio_ok (stream_run e hs)]
  exact setStream_run _ _ _ _ _ _ _

theorem fclose_null (e : Faults) (w : Sys) : fclose none e w = (w, .ub .nullDeref) := by
  unfold fclose
  rw [cio_ub (stream_null e w)]

theorem fseek_null (e : Faults) (w : Sys) (pos : Int) : fseek none pos e w = (w, .ub .nullDeref) := by
  unfold fseek
  rw [cio_ub (stream_null e w)]

theorem getc_null (e : Faults) (w : Sys) : getc none e w = (w, .ub .nullDeref) := by
  unfold getc
  rw [cio_ub (stream_null e w)]

theorem putc_null (b : MByte) (e : Faults) (w : Sys) : putc b none e w = (w, .ub .nullDeref) := by
  unfold putc
  rw [cio_ub (stream_null e w)]

theorem fwrite_null (data : Bytes) (e : Faults) (w : Sys) : fwrite data none e w = (w, .ub .nullDeref) := by
  cases data with
  | nil => unfold fwrite; rw [cio_ub (stream_null e w)]
  | cons b data => unfold fwrite; rw [cio_ub (putc_null b e w)]

theorem fseek_named {h : Nat} {nm : Name} {p : Nat} (pos : Int) (e : Faults) {F : Name → File} {S : Nat → Option Stream}
    {n t : Nat} (hs : S h = some (.named nm p)) :
    fseek (some h) pos e ⟨F, S, n, t⟩ =
      if e t = true ∨ pos < 0 then (⟨F, S, n, t + 1⟩, .ok ())
      else (⟨F, upd S h (some (.named nm pos.toNat)), n, t + 1⟩, .ok ()) := by
  unfold fseek
  rw [cio_ok (stream_run e hs)]
  simp only [cio_bind, attempt_run]
  cases he : e t
  · by_cases hp : pos < 0 <;> simp [cio_bind, cio_pure, hp, newStream_run, fileNamed_run, setFile_run, setStream_run]
  · simp [cio_bind, cio_pure, newStream_run, fileNamed_run, setFile_run, setStream_run]

theorem fseek_end_null (e : Faults) (w : Sys) : fseek_end none e w = (w, .ub .nullDeref) := by
  unfold fseek_end
  rw [cio_ub (stream_null e w)]

theorem fseek_end_named {h : Nat} {nm : Name} {p : Nat} {c : Bytes} (e : Faults) {F : Name → File}
    {S : Nat → Option Stream} {n t : Nat} (hs : S h = some (.named nm p)) (hF : F nm = some c) :
    fseek_end (some h) e ⟨F, S, n, t⟩ =
      (⟨F, if e t = true then S else upd S h (some (.named nm c.length)), n, t + 1⟩, .ok ()) := by
  unfold fseek_end
  rw [cio_ok (stream_run e hs)]
  simp only [cio_bind, attempt_run]
  cases he : e t <;> simp [cio_bind, cio_pure, hF, fileNamed_run, setStream_run]

theorem ftell_named {h : Nat} {nm : Name} {p : Nat} (e : Faults) {F : Name → File} {S : Nat → Option Stream}
    {n t : Nat} (hs : S h = some (.named nm p)) :
    ftell (some h) e ⟨F, S, n, t⟩ = (⟨F, S, n, t + 1⟩, .ok (if e t = true then -1 else p)) := by
  unfold ftell
  rw [cio_ok (stream_run e hs)]
  simp only [cio_bind, attempt_run]
  cases he : e t <;> simp [cio_pure]

theorem fseek_temp {h : Nat} {c : Bytes} {p : Nat} (pos : Int) (e : Faults) {F : Name → File} {S : Nat → Option Stream}
    {n t : Nat} (hs : S h = some (.temp c p)) :
    fseek (some h) pos e ⟨F, S, n, t⟩ =
      if e t = true ∨ pos < 0 then (⟨F, S, n, t + 1⟩, .ok ())
      else (⟨F, upd S h (some (.temp c pos.toNat)), n, t + 1⟩, .ok ()) := by
  unfold fseek
  rw [cio_ok (stream_run e hs)]
  simp only [cio_bind, attempt_run]
  cases he : e t
  · by_cases hp : pos < 0 <;> simp [cio_bind, cio_pure, hp, newStream_run, fileNamed_run, setFile_run, setStream_run]
  · simp [cio_bind, cio_pure, newStream_run, fileNamed_run, setFile_run, setStream_run]

theorem getc_named {h : Nat} {nm : Name} {p : Nat} {c : Bytes} (e : Faults) {F : Name → File} {S : Nat → Option Stream}
    {n t : Nat} (hs : S h = some (.named nm p)) (hF : F nm = some c) :
    getc (some h) e ⟨F, S, n, t⟩ =
      if e t = true then (⟨F, S, n, t + 1⟩, .ok none)
      else match c[p]? with
        | none => (⟨F, S, n, t + 1⟩, .ok none)
        | some b => (⟨F, upd S h (some (.named nm (p + 1))), n, t + 1⟩, .ok (some b)) := by
  unfold getc
  rw [cio_ok (stream_run e hs)]
  simp only [cio_bind, attempt_run]
  cases he : e t
  · cases hc : c[p]? <;> simp [cio_bind, cio_pure, hF, hc, newStream_run, fileNamed_run, setFile_run, setStream_run]
  · simp [cio_bind, cio_pure, newStream_run, fileNamed_run, setFile_run, setStream_run]

theorem getc_temp {h : Nat} {p : Nat} {c : Bytes} (e : Faults) {F : Name → File} {S : Nat → Option Stream}
    {n t : Nat} (hs : S h = some (.temp c p)) :
    getc (some h) e ⟨F, S, n, t⟩ =
      if e t = true then (⟨F, S, n, t + 1⟩, .ok none)
      else match c[p]? with
        | none => (⟨F, S, n, t + 1⟩, .ok none)
        | some b => (⟨F, upd S h (some (.temp c (p + 1))), n, t + 1⟩, .ok (some b)) := by
  unfold getc
  rw [cio_ok (stream_run e hs)]
  simp only [cio_bind, attempt_run]
  cases he : e t
  · cases hc : c[p]? <;> simp [cio_bind, cio_pure, hc, newStream_run, fileNamed_run, setFile_run, setStream_run]
  · simp [cio_bind, cio_pure, newStream_run, fileNamed_run, setFile_run, setStream_run]

theorem poke_end (c : Bytes) (b : MByte) : poke c c.length b = c ++ [b] := by simp [poke]

theorem putc_named {h : Nat} {nm : Name} {c : Bytes} (b : MByte) (e : Faults) {F : Name → File} {S : Nat → Option Stream}
    {n t : Nat} (hs : S h = some (.named nm c.length)) (hF : F nm = some c) :
    putc b (some h) e ⟨F, S, n, t⟩ =
      if e t = true then (⟨F, S, n, t + 1⟩, .ok ())
      else (⟨upd F nm (some (c ++ [b])), upd S h (some (.named nm (c.length + 1))), n, t + 1⟩, .ok ()) := by
  unfold putc
  rw [cio_ok (stream_run e hs)]
  simp only [cio_bind, attempt_run]
  cases he : e t <;> simp [cio_bind, cio_pure, hF, poke_end, newStream_run, fileNamed_run, setFile_run, setStream_run]

theorem putc_temp {h : Nat} {c : Bytes} (b : MByte) (e : Faults) {F : Name → File} {S : Nat → Option Stream}
    {n t : Nat} (hs : S h = some (.temp c c.length)) :
    putc b (some h) e ⟨F, S, n, t⟩ =
      if e t = true then (⟨F, S, n, t + 1⟩, .ok ())
      else (⟨F, upd S h (some (.temp (c ++ [b]) (c.length + 1))), n, t + 1⟩, .ok ()) := by
  unfold putc
  rw [cio_ok (stream_run e hs)]
  simp only [cio_bind, attempt_run]
  cases he : e t <;> simp [cio_bind, cio_pure, poke_end, newStream_run, fileNamed_run, setFile_run, setStream_run]

theorem drop_of_none {c : Bytes} {p : Nat} (h : c[p]? = none) : c.drop p = [] := by
  rw [List.drop_eq_nil_iff]; exact List.getElem?_eq_none_iff.mp h

theorem drop_of_some {c : Bytes} {p : Nat} {b : MByte} (h : c[p]? = some b) : c.drop p = b :: c.drop (p + 1) := by
  obtain ⟨hl, rfl⟩ := List.getElem?_eq_some_iff.mp h
  exact List.drop_eq_getElem_cons hl

/-- `fread` delivers a prefix of what is there; all of it if nothing fails. -/
theorem fread_run (N : Nat) {h : Nat} {nm : Name} {c : Bytes} (e : Faults) {F : Name → File} {n : Nat} (hF : F nm = some c) :
    ∀ {p : Nat} {S : Nat → Option Stream} {t : Nat}, S h = some (.named nm p) →
    ∃ x S' p' t', fread N (some h) e ⟨F, S, n, t⟩ = (⟨F, S', n, t'⟩, .ok x) ∧ x <+: (c.drop p).take N ∧
      (NoFaults e → x = (c.drop p).take N) ∧ S' h = some (.named nm p') ∧ ∀ k, k ≠ h → S' k = S k := by
  induction N with
  | zero =>
    intro p S t hs
    refine ⟨[], S, p, t, ?_, by simp, by simp, hs, fun _ _ => rfl⟩
    unfold fread; rw [cio_pure]
  | succ N ih =>
    intro p S t hs
    have hg := getc_named (n := n) (t := t) e hs hF
    unfold fread
    rw [cio_bind, hg]
    by_cases he : e t = true
    · rw [if_pos he]
      refine ⟨[], S, p, t + 1, by simp only [cio_pure], by simp, ?_, hs, fun _ _ => rfl⟩
      intro hn; rw [hn t] at he; cases he
    · rw [if_neg he]
      cases hc : c[p]? with
      | none =>
        refine ⟨[], S, p, t + 1, by simp only [cio_pure], by simp, ?_, hs, fun _ _ => rfl⟩
        intro _; rw [drop_of_none hc]; rfl
      | some b =>
        obtain ⟨x, S', p', t', h1, h2, h3, h4, h5⟩ := @ih (p + 1) (upd S h (some (.named nm (p + 1)))) (t + 1) (upd_self _ _ _)
        refine ⟨b :: x, S', p', t', ?_, ?_, ?_, h4, ?_⟩
        · simp only [cio_ok h1, cio_pure]
        · rw [drop_of_some hc, List.take_succ_cons]
          exact (List.prefix_cons_inj b).mpr h2
        · intro hn; rw [h3 hn, drop_of_some hc, List.take_succ_cons]
        · intro k hk; rw [h5 k hk, upd_ne _ _ hk]

/-- `fwrite` to a temporary file writes some of the bytes; all of them if nothing fails. -/
theorem fwrite_run {h : Nat} (e : Faults) {F : Name → File} {n : Nat} : ∀ (data : Bytes) {c : Bytes}
    {S : Nat → Option Stream} {t : Nat}, S h = some (.temp c c.length) →
    ∃ x S' t', fwrite data (some h) e ⟨F, S, n, t⟩ = (⟨F, S', n, t'⟩, .ok ()) ∧ x.Sublist data ∧
      (NoFaults e → x = data) ∧ S' h = some (.temp (c ++ x) (c ++ x).length) ∧ ∀ k, k ≠ h → S' k = S k := by
  intro data
  induction data with
  | nil =>
    intro c S t hs
    refine ⟨[], S, t, ?_, List.Sublist.refl _, fun _ => rfl, by simpa using hs, fun _ _ => rfl⟩
    unfold fwrite; rw [cio_ok (stream_run e hs), cio_pure]
  | cons b data ih =>
    intro c S t hs
    have hp := putc_temp (F := F) (n := n) (t := t) b e hs
    unfold fwrite
    by_cases he : e t = true
    · rw [if_pos he] at hp
      rw [cio_ok hp]
      obtain ⟨x, S', t', h1, h2, h3, h4, h5⟩ := ih (S := S) (t := t + 1) hs
      refine ⟨x, S', t', h1, h2.cons b, ?_, h4, h5⟩
      intro hn; rw [hn t] at he; cases he
    · rw [if_neg he] at hp
      rw [cio_ok hp]
      obtain ⟨x, S', t', h1, h2, h3, h4, h5⟩ := ih (c := c ++ [b]) (S := upd S h (some (.temp (c ++ [b]) (c.length + 1))))
        (t := t + 1) (by rw [upd_self]; simp)
      refine ⟨b :: x, S', t', h1, h2.cons_cons b, fun hn => by rw [h3 hn], ?_, ?_⟩
      · rw [h4]; simp
      · intro k hk; rw [h5 k hk, upd_ne _ _ hk]

/-- The loop that copies a file to a temporary file. -/
theorem copy_to_temp {src dst : Nat} {nm : Name} {c : Bytes} (e : Faults) {F : Name → File} {n : Nat} (hne : src ≠ dst)
    (hF : F nm = some c) : ∀ (rounds : Nat) {p : Nat} {d : Bytes} {S : Nat → Option Stream} {t : Nat},
    c.length - p < rounds → S src = some (.named nm p) → S dst = some (.temp d d.length) →
    ∃ x y S' p' t', copyRounds rounds (some src) (some dst) e ⟨F, S, n, t⟩ = (⟨F, S', n, t'⟩, .ok ()) ∧
      x <+: c.drop p ∧ y.Sublist x ∧ (NoFaults e → y = c.drop p ∧ x = c.drop p) ∧ S' src = some (.named nm p') ∧
      S' dst = some (.temp (d ++ y) (d ++ y).length) ∧ ∀ k, k ≠ src → k ≠ dst → S' k = S k := by
  intro rounds
  induction rounds with
  | zero => intro p d S t hl; omega
  | succ rounds ih =>
    intro p d S t hl hs hd
    have hg := getc_named (n := n) (t := t) e hs hF
    unfold copyRounds
    rw [cio_bind, hg]
    by_cases he : e t = true
    · rw [if_pos he]
      refine ⟨[], [], S, p, t + 1, by simp only [cio_pure], by simp, by simp, ?_, hs, by simpa using hd, fun _ _ _ => rfl⟩
      intro hn; rw [hn t] at he; cases he
    · rw [if_neg he]
      cases hc : c[p]? with
      | none =>
        refine ⟨[], [], S, p, t + 1, by simp only [cio_pure], by simp, by simp, ?_, hs, by simpa using hd, fun _ _ _ => rfl⟩
        intro _; rw [drop_of_none hc]; exact ⟨rfl, rfl⟩
      | some b =>
        have hlen := (List.getElem?_eq_some_iff.mp hc).1
        have hs1 : upd S src (some (.named nm (p + 1))) src = some (.named nm (p + 1)) := upd_self _ _ _
        have hd1 : upd S src (some (.named nm (p + 1))) dst = some (.temp d d.length) := by rw [upd_ne _ _ hne.symm, hd]
        have hp := putc_temp (F := F) (n := n) (t := t + 1) b e hd1
        by_cases he1 : e (t + 1) = true
        · rw [if_pos he1] at hp
          obtain ⟨x, y, S', p', t', h1, h2, h3, h4, h5, h6, h7⟩ := ih (t := t + 1 + 1) (by omega) hs1 hd1
          refine ⟨b :: x, y, S', p', t', ?_, ?_, h3.cons b, ?_, h5, h6, ?_⟩
          · simp only [cio_ok hp, h1]
          · rw [drop_of_some hc]; exact (List.prefix_cons_inj b).mpr h2
          · intro hn; rw [hn (t + 1)] at he1; cases he1
          · intro k hk1 hk2; rw [h7 k hk1 hk2, upd_ne _ _ hk1]
        · rw [if_neg he1] at hp
          obtain ⟨x, y, S', p', t', h1, h2, h3, h4, h5, h6, h7⟩ := ih (t := t + 1 + 1) (d := d ++ [b])
            (S := upd (upd S src (some (.named nm (p + 1)))) dst (some (.temp (d ++ [b]) (d.length + 1)))) (p := p + 1)
            (by omega) (by rw [upd_ne _ _ hne, upd_self]) (by rw [upd_self]; simp)
          refine ⟨b :: x, b :: y, S', p', t', ?_, ?_, h3.cons_cons b, ?_, h5, ?_, ?_⟩
          · simp only [cio_ok hp, h1]
          · rw [drop_of_some hc]; exact (List.prefix_cons_inj b).mpr h2
          · intro hn; rw [(h4 hn).1, (h4 hn).2, drop_of_some hc]; exact ⟨rfl, rfl⟩
          · rw [h6]; simp
          · intro k hk1 hk2; rw [h7 k hk1 hk2, upd_ne _ _ hk2, upd_ne _ _ hk1]

/-- The loop that copies a temporary file to a file. -/
theorem copy_to_file {src dst : Nat} {nm : Name} {c : Bytes} (e : Faults) {n : Nat} (hne : src ≠ dst) :
    ∀ (rounds : Nat) {p : Nat} {d : Bytes} {F : Name → File} {S : Nat → Option Stream} {t : Nat},
    c.length - p < rounds → S src = some (.temp c p) → S dst = some (.named nm d.length) → F nm = some d →
    ∃ x y F' S' p' t', copyRounds rounds (some src) (some dst) e ⟨F, S, n, t⟩ = (⟨F', S', n, t'⟩, .ok ()) ∧
      x <+: c.drop p ∧ y.Sublist x ∧ (NoFaults e → y = c.drop p ∧ x = c.drop p) ∧ S' src = some (.temp c p') ∧
      S' dst = some (.named nm (d ++ y).length) ∧ F' nm = some (d ++ y) ∧ (∀ m, m ≠ nm → F' m = F m) ∧
      ∀ k, k ≠ src → k ≠ dst → S' k = S k := by
  intro rounds
  induction rounds with
  | zero => intro p d F S t hl; omega
  | succ rounds ih =>
    intro p d F S t hl hs hd hF
    have hg := getc_temp (F := F) (n := n) (t := t) e hs
    unfold copyRounds
    rw [cio_bind, hg]
    by_cases he : e t = true
    · rw [if_pos he]
      refine ⟨[], [], F, S, p, t + 1, by simp only [cio_pure], by simp, by simp, ?_, hs, by simpa using hd, by simpa using hF,
        fun _ _ => rfl, fun _ _ _ => rfl⟩
      intro hn; rw [hn t] at he; cases he
    · rw [if_neg he]
      cases hc : c[p]? with
      | none =>
        refine ⟨[], [], F, S, p, t + 1, by simp only [cio_pure], by simp, by simp, ?_, hs, by simpa using hd,
          by simpa using hF, fun _ _ => rfl, fun _ _ _ => rfl⟩
        intro _; rw [drop_of_none hc]; exact ⟨rfl, rfl⟩
      | some b =>
        have hlen := (List.getElem?_eq_some_iff.mp hc).1
        have hs1 : upd S src (some (.temp c (p + 1))) src = some (.temp c (p + 1)) := upd_self _ _ _
        have hd1 : upd S src (some (.temp c (p + 1))) dst = some (.named nm d.length) := by rw [upd_ne _ _ hne.symm, hd]
        have hp := putc_named (n := n) (t := t + 1) b e hd1 hF
        by_cases he1 : e (t + 1) = true
        · rw [if_pos he1] at hp
          obtain ⟨x, y, F', S', p', t', h1, h2, h3, h4, h5, h6, h7, h8, h9⟩ := ih (t := t + 1 + 1) (by omega) hs1 hd1 hF
          refine ⟨b :: x, y, F', S', p', t', ?_, ?_, h3.cons b, ?_, h5, h6, h7, h8, ?_⟩
          · simp only [cio_ok hp, h1]
          · rw [drop_of_some hc]; exact (List.prefix_cons_inj b).mpr h2
          · intro hn; rw [hn (t + 1)] at he1; cases he1
          · intro k hk1 hk2; rw [h9 k hk1 hk2, upd_ne _ _ hk1]
        · rw [if_neg he1] at hp
          obtain ⟨x, y, F', S', p', t', h1, h2, h3, h4, h5, h6, h7, h8, h9⟩ := ih (t := t + 1 + 1) (d := d ++ [b])
            (F := upd F nm (some (d ++ [b])))
            (S := upd (upd S src (some (.temp c (p + 1)))) dst (some (.named nm (d.length + 1)))) (p := p + 1)
            (by omega) (by rw [upd_ne _ _ hne, upd_self]) (by rw [upd_self]; simp) (upd_self _ _ _)
          refine ⟨b :: x, b :: y, F', S', p', t', ?_, ?_, h3.cons_cons b, ?_, h5, ?_, ?_, ?_, ?_⟩
          · simp only [cio_ok hp, h1]
          · rw [drop_of_some hc]; exact (List.prefix_cons_inj b).mpr h2
          · intro hn; rw [(h4 hn).1, (h4 hn).2, drop_of_some hc]; exact ⟨rfl, rfl⟩
          · rw [h6]; simp
          · rw [h7]; simp
          · intro m hm; rw [h8 m hm, upd_ne _ _ hm]
          · intro k hk1 hk2; rw [h9 k hk1 hk2, upd_ne _ _ hk2, upd_ne _ _ hk1]

/-- The loop that copies a file to NULL ends at once or crashes. -/
theorem copy_file_to_null {src : Nat} {nm : Name} {c : Bytes} (e : Faults) {F : Name → File} {n : Nat} (hF : F nm = some c)
    (rounds : Nat) {p : Nat} {S : Nat → Option Stream} {t : Nat} (hl : c.length - p < rounds)
    (hs : S src = some (.named nm p)) :
    ∃ x S' p' t' r, copyRounds rounds (some src) none e ⟨F, S, n, t⟩ = (⟨F, S', n, t'⟩, r) ∧ x <+: c.drop p ∧
      r = (if x = [] then .ok () else .ub .nullDeref) ∧ S' src = some (.named nm p') ∧ ∀ k, k ≠ src → S' k = S k := by
  match rounds, hl with
  | rounds + 1, hl =>
    have hg := getc_named (n := n) (t := t) e hs hF
    unfold copyRounds
    rw [cio_bind, hg]
    by_cases he : e t = true
    · rw [if_pos he]
      exact ⟨[], S, p, t + 1, _, by simp only [cio_pure]; rfl, by simp, rfl, hs, fun _ _ => rfl⟩
    · rw [if_neg he]
      cases hc : c[p]? with
      | none => exact ⟨[], S, p, t + 1, _, by simp only [cio_pure]; rfl, by simp, rfl, hs, fun _ _ => rfl⟩
      | some b =>
        refine ⟨[b], _, p + 1, t + 1, _, by simp only [cio_ub (putc_null _ _ _)]; rfl, ?_, rfl, upd_self _ _ _,
          fun k hk => upd_ne _ _ hk⟩
        rw [drop_of_some hc]
        exact ⟨_, rfl⟩

/-- The loop that copies a temporary file to NULL ends at once or crashes. -/
theorem copy_temp_to_null {src : Nat} {c : Bytes} (e : Faults) {F : Name → File} {n : Nat}
    (rounds : Nat) {p : Nat} {S : Nat → Option Stream} {t : Nat} (hl : c.length - p < rounds)
    (hs : S src = some (.temp c p)) :
    ∃ x S' p' t' r, copyRounds rounds (some src) none e ⟨F, S, n, t⟩ = (⟨F, S', n, t'⟩, r) ∧ x <+: c.drop p ∧
      r = (if x = [] then .ok () else .ub .nullDeref) ∧ S' src = some (.temp c p') ∧ ∀ k, k ≠ src → S' k = S k := by
  match rounds, hl with
  | rounds + 1, hl =>
    have hg := getc_temp (F := F) (n := n) (t := t) e hs
    unfold copyRounds
    rw [cio_bind, hg]
    by_cases he : e t = true
    · rw [if_pos he]
      exact ⟨[], S, p, t + 1, _, by simp only [cio_pure]; rfl, by simp, rfl, hs, fun _ _ => rfl⟩
    · rw [if_neg he]
      cases hc : c[p]? with
      | none => exact ⟨[], S, p, t + 1, _, by simp only [cio_pure]; rfl, by simp, rfl, hs, fun _ _ => rfl⟩
      | some b =>
        refine ⟨[b], _, p + 1, t + 1, _, by simp only [cio_ub (putc_null _ _ _)]; rfl, ?_, rfl, upd_self _ _ _,
          fun k hk => upd_ne _ _ hk⟩
        rw [drop_of_some hc]
        exact ⟨_, rfl⟩

theorem land_congr {f g : Nat → Bool} : ∀ (l : Bytes) (i : Nat), (∀ k, i ≤ k → f k = g k) → land f i l = land g i l
  | [], _, _ => rfl
  | b :: l, i, h => by
    unfold land
    rw [h i (Nat.le_refl i), land_congr l (i + 1) fun k hk => h k (by omega)]

theorem land_false : ∀ (l : Bytes) (i : Nat), land (fun _ => false) i l = l
  | [], _ => rfl
  | b :: l, i => by unfold land; rw [land_false l (i + 1)]; rfl

/-- Every choice of bytes that do not reach the file is one of `land`. -/
theorem sublist_lost {x l : Bytes} (h : x.Sublist l) : ∃ lost, land lost 0 l = x ∧ (x = l → lost = fun _ => false) := by
  have key : ∀ {x l : Bytes}, x.Sublist l → ∀ i, ∃ lost, land lost i l = x := by
    intro x l h
    induction h with
    | slnil => exact fun i => ⟨fun _ => false, rfl⟩
    | @cons l₁ l₂ b _ ih =>
      intro i
      obtain ⟨lost, hl⟩ := ih (i + 1)
      refine ⟨upd lost i true, ?_⟩
      unfold land
      rw [upd_self, if_pos rfl, ← hl]
      exact land_congr _ _ fun k hk => upd_ne _ _ (by omega)
    | @cons_cons l₁ l₂ b _ ih =>
      intro i
      obtain ⟨lost, hl⟩ := ih (i + 1)
      refine ⟨upd lost i false, ?_⟩
      unfold land
      rw [upd_self, if_neg (by simp), ← hl]
      congr 1
      exact land_congr _ _ fun k hk => upd_ne _ _ (by omega)
  by_cases e : x = l
  · exact ⟨fun _ => false, by rw [land_false, e], fun _ => rfl⟩
  · obtain ⟨lost, hl⟩ := key h 0
    exact ⟨lost, hl, fun h => absurd h e⟩

/-- Every prefix is what is delivered with some fault. -/
theorem prefix_stops {x l : Bytes} (h : x <+: l) (o s : Bool) :
    ∃ stops, (ReadFaults.mk o s stops).deliver l = x ∧ (x = l → stops = none) := by
  by_cases e : x = l
  · exact ⟨none, e.symm, fun _ => rfl⟩
  · refine ⟨some x.length, ?_, fun h => absurd h e⟩
    exact List.prefix_iff_eq_take.mp h |>.symm

theorem upd_back {α β : Type} [DecidableEq α] {f g : α → β} {a : α} {b : β} (ha : f a = b) (h : ∀ k, k ≠ a → g k = f k) :
    upd g a b = f := by
  funext k
  by_cases hk : k = a
  · rw [hk, upd_self, ha]
  · rw [upd_ne _ _ hk, h k hk]

/-- No stream is open that was not opened yet. -/
def Fresh (S : Nat → Option Stream) (n : Nat) : Prop := ∀ h, n ≤ h → S h = none

theorem header_os_run [Platform] (name : Name) (e : Faults) (F : Name → File) (S : Nat → Option Stream) (n t : Nat)
    (hw : Fresh S n) :
    ∃ eh n' t', ID3v2_read_tag_header_os name e ⟨F, S, n, t⟩ = (⟨F, S, n', t'⟩, ID3v2_read_tag_header_io eh (F name)) ∧
      n ≤ n' ∧ (NoFaults e → eh = .none) := by
  unfold ID3v2_read_tag_header_os
  rw [cio_bind, fopen_existing_run]
  by_cases hf : e t = true ∨ F name = none
  · rw [if_pos hf]
    refine ⟨⟨!e t, true, .none⟩, n, t + 1, ?_, Nat.le_refl n, fun hn => by rw [hn t]; rfl⟩
    simp only [cio_pure]
    unfold ID3v2_read_tag_header_io ReadFaults.open
    rcases hf with hf | hf
    · simp [hf]
    · cases e t <;> simp [hf]
  · rw [if_neg hf]
    have he : e t = false := by cases h : e t <;> simp [h] at hf ⊢
    obtain ⟨c, hc⟩ : ∃ c, F name = some c := by
      cases h : F name with
      | none => exact absurd (.inr h) hf
      | some c => exact ⟨c, rfl⟩
    obtain ⟨x, S', p', t', h1, h2, h3, h4, h5⟩ := fread_run 10 e (n := n + 1) (t := t + 1) hc
      (S := upd S n (some (.named name 0))) (h := n) (p := 0) (upd_self _ _ _)
    rw [List.drop_zero] at h2 h3
    obtain ⟨stops, hs1, hs2⟩ := prefix_stops h2 true true
    have hback : upd S' n none = S := upd_back (hw n (Nat.le_refl n)) fun k hk => by rw [h5 k hk, upd_ne _ _ hk]
    refine ⟨⟨true, true, stops⟩, n + 1, t', ?_, by omega, ?_⟩
    · simp only [cio_ok h1]
      rw [cio_ok (fclose_run e h4), hback]
      unfold ID3v2_read_tag_header_io ReadFaults.open
      rw [if_pos rfl, hc]
      simp only [hs1]
      by_cases hl : x.length < 10
      · rw [if_pos hl, if_pos hl, cio_pure]
      · rw [if_neg hl, if_neg hl, pureRes_run]
    · intro hn
      rw [hs2 (h3 hn)]; rfl

theorem Fresh.mono {S : Nat → Option Stream} {n n' : Nat} (h : Fresh S n) (hn : n ≤ n') : Fresh S n' :=
  fun k hk => h k (by omega)

/-- Reading from NULL and closing it. -/
theorem fread_close_null {α : Type} (N : Nat) (f : Bytes → CIO α) (e : Faults) (w : Sys) :
    (fread N none >>= fun data => fclose none >>= fun _ => f data) e w = (w, .ub .nullDeref) := by
  cases N with
  | zero =>
    have : fread 0 none e w = (w, .ok []) := by unfold fread; rw [cio_pure]
    rw [cio_ok this, cio_ub (fclose_null _ _)]
  | succ N =>
    have : fread (N + 1) none e w = (w, .ub .nullDeref) := by unfold fread; rw [cio_ub (getc_null _ _)]
    rw [cio_ub this]

theorem read_os_run [Platform] (name : Name) (e : Faults) (F : Name → File) (S : Nat → Option Stream) (n t : Nat)
    (hw : Fresh S n) :
    ∃ eh eb al n' t', ID3v2_read_tag_os name e ⟨F, S, n, t⟩ = (⟨F, S, n', t'⟩, ID3v2_read_tag_io eh eb al (F name)) ∧
      n ≤ n' ∧ (NoFaults e → eh = .none ∧ eb = .none ∧ al = true) := by
  obtain ⟨eh, n₁, t₁, h1, hn1, hnf1⟩ := header_os_run name e F S n t hw
  unfold ID3v2_read_tag_os ID3v2_read_tag_io
  rw [cio_bind, h1]
  cases hr : ID3v2_read_tag_header_io eh (F name) with
  | ub k => exact ⟨eh, .none, true, n₁, t₁, by rw [hr]; rfl, hn1, fun hn => ⟨hnf1 hn, rfl, rfl⟩⟩
  | exit => exact ⟨eh, .none, true, n₁, t₁, by rw [hr]; rfl, hn1, fun hn => ⟨hnf1 hn, rfl, rfl⟩⟩
  | diverge => exact ⟨eh, .none, true, n₁, t₁, by rw [hr]; rfl, hn1, fun hn => ⟨hnf1 hn, rfl, rfl⟩⟩
  | ok hd =>
    cases hd with
    | none => exact ⟨eh, .none, true, n₁, t₁, by rw [hr]; rfl, hn1, fun hn => ⟨hnf1 hn, rfl, rfl⟩⟩
    | some h =>
      have hw1 := hw.mono hn1
      simp only []
      rw [cio_bind, fopen_existing_run]
      by_cases hf : e t₁ = true ∨ F name = none
      · rw [if_pos hf]
        refine ⟨eh, ⟨!e t₁, true, .none⟩, !e (t₁ + 1), n₁, t₁ + 1 + 1, ?_, hn1, fun hn => ⟨hnf1 hn, by rw [hn t₁]; rfl, by rw [hn]; rfl⟩⟩
        have ho : ReadFaults.open ⟨!e t₁, true, .none⟩ (F name) = none := by
          unfold ReadFaults.open
          rcases hf with hf | hf
          · simp [hf]
          · cases e t₁ <;> simp [hf]
        rw [hr, Res.bind_ok]
        simp only [ho]
        rw [cio_ok (attempt_run _ _ _ _ _)]
        by_cases ha : (!e (t₁ + 1)) = true
        · rw [if_pos ha]
          exact fread_close_null _ _ _ _
        · rw [if_neg ha, cio_ub (fclose_null _ _)]
      · rw [if_neg hf]
        have he : e t₁ = false := by cases h : e t₁ <;> simp [h] at hf ⊢
        obtain ⟨c, hc⟩ : ∃ c, F name = some c := by
          cases h : F name with
          | none => exact absurd (.inr h) hf
          | some c => exact ⟨c, rfl⟩
        simp only []
        rw [cio_ok (attempt_run _ _ _ _ _)]
        by_cases ha : (!e (t₁ + 1)) = true
        · rw [if_pos ha]
          obtain ⟨x, S', p', t', g1, g2, g3, g4, g5⟩ := fread_run (toInt32 (u32 (h.tag_size + 10))).toNat e (n := n₁ + 1)
            (t := t₁ + 1 + 1) hc (S := upd S n₁ (some (.named name 0))) (h := n₁) (p := 0) (upd_self _ _ _)
          rw [List.drop_zero] at g2 g3
          obtain ⟨stops, hs1, hs2⟩ := prefix_stops g2 true true
          have hback : upd S' n₁ none = S := upd_back (hw1 n₁ (Nat.le_refl n₁)) fun k hk => by rw [g5 k hk, upd_ne _ _ hk]
          refine ⟨eh, ⟨true, true, stops⟩, true, n₁ + 1, t', ?_, by omega, fun hn => ⟨hnf1 hn, by rw [hs2 (g3 hn)]; rfl, rfl⟩⟩
          rw [cio_ok g1, cio_ok (fclose_run e g4), hback, pureRes_run, hr, Res.bind_ok]
          unfold ReadFaults.open
          rw [if_pos rfl, hc]
          simp only [hs1]
          rfl
        · rw [if_neg ha, cio_ok (fclose_run e (upd_self _ _ _)), cio_pure]
          have hback : upd (upd S n₁ (some (.named name 0))) n₁ none = S :=
            upd_back (hw1 n₁ (Nat.le_refl n₁)) fun k hk => by rw [upd_ne _ _ hk]
          rw [hback]
          refine ⟨eh, .none, false, n₁ + 1, t₁ + 1 + 1, ?_, by omega, fun hn => ?_⟩
          · rw [hr, Res.bind_ok]
            unfold ReadFaults.open ReadFaults.none
            rw [if_pos rfl, hc]
            rfl
          · rw [hn] at ha; exact absurd rfl ha

theorem copyLoop_named {src : Nat} {nm : Name} {p : Nat} {c : Bytes} (dst : Option Nat) (e : Faults) {F : Name → File}
    {S : Nat → Option Stream} {n t : Nat} (hs : S src = some (.named nm p)) (hF : F nm = some c) :
    copyLoop (some src) dst e ⟨F, S, n, t⟩ = copyRounds (c.length - p + 1) (some src) dst e ⟨F, S, n, t⟩ := by
  have : bytesLeft (some src) e ⟨F, S, n, t⟩ = (⟨F, S, n, t⟩, .ok (c.length - p)) := by
    unfold bytesLeft; simp [hs, hF]
  unfold copyLoop
  rw [cio_ok this]

theorem copyLoop_temp {src : Nat} {p : Nat} {c : Bytes} (dst : Option Nat) (e : Faults) {F : Name → File}
    {S : Nat → Option Stream} {n t : Nat} (hs : S src = some (.temp c p)) :
    copyLoop (some src) dst e ⟨F, S, n, t⟩ = copyRounds (c.length - p + 1) (some src) dst e ⟨F, S, n, t⟩ := by
  have : bytesLeft (some src) e ⟨F, S, n, t⟩ = (⟨F, S, n, t⟩, .ok (c.length - p)) := by
    unfold bytesLeft; simp [hs]
  unfold copyLoop
  rw [cio_ok this]

/-- src/id3v2lib.c:109-118 / 142-152: the rest of the old file is saved in the temporary file. -/
theorem save_run {α : Type} {src tmp : Nat} {nm : Name} {c d : Bytes} (pos : Int) (f : CIO α) (e : Faults) {F : Name → File}
    {S : Nat → Option Stream} {n t : Nat} (hne : src ≠ tmp) (hs : S src = some (.named nm 0))
    (hd : S tmp = some (.temp d d.length)) (hF : F nm = some c) :
    ∃ seeks stops y S' t', (fseek (some src) pos >>= fun _ => copyLoop (some src) (some tmp) >>= fun _ =>
        fclose (some src) >>= fun _ => f) e ⟨F, S, n, t⟩ = f e ⟨F, S', n, t'⟩ ∧
      y.Sublist (ReadFaults.deliver ⟨true, seeks, stops⟩ (c.drop (if seeks then pos.toNat else 0))) ∧
      (NoFaults e → seeks = true ∧ stops = none ∧ y = c.drop pos.toNat) ∧
      S' src = none ∧ S' tmp = some (.temp (d ++ y) (d ++ y).length) ∧ ∀ k, k ≠ src → k ≠ tmp → S' k = S k := by
  -- the position after `fseek`
  obtain ⟨S₁, p, hseek, h1, h2, h3, h4⟩ : ∃ S₁ p, fseek (some src) pos e ⟨F, S, n, t⟩ = (⟨F, S₁, n, t + 1⟩, .ok ()) ∧
      S₁ src = some (.named nm p) ∧ S₁ tmp = some (.temp d d.length) ∧ (∀ k, k ≠ src → S₁ k = S k) ∧
      p = if (!e t) = true then pos.toNat else 0 := by
    rw [fseek_named pos e hs]
    by_cases hc : e t = true ∨ pos < 0
    · rw [if_pos hc]
      refine ⟨S, 0, rfl, hs, hd, fun _ _ => rfl, ?_⟩
      rcases hc with hc | hc
      · simp [hc]
      · split
        · omega
        · rfl
    · rw [if_neg hc]
      refine ⟨_, pos.toNat, rfl, upd_self _ _ _, by rw [upd_ne _ _ hne.symm, hd], fun k hk => upd_ne _ _ hk, ?_⟩
      rw [if_pos]
      cases h : e t <;> simp [h] at hc ⊢
  obtain ⟨x, y, S', p', t', g1, g2, g3, g4, g5, g6, g7⟩ := copy_to_temp e (n := n) (t := t + 1) hne hF (c.length - p + 1)
    (by omega) h1 h2
  obtain ⟨stops, hs1, hs2⟩ := prefix_stops g2 true (!e t)
  refine ⟨!e t, stops, y, upd S' src none, t', ?_, ?_, ?_, upd_self _ _ _, by rw [upd_ne _ _ hne.symm, g6], ?_⟩
  · rw [cio_ok hseek, cio_ok ((copyLoop_named _ e h1 hF).trans g1), cio_ok (fclose_run e g5)]
  · rw [← h4, hs1]; exact g3
  · intro hn
    have hp : p = pos.toNat := by rw [h4, if_pos (by rw [hn t]; rfl)]
    exact ⟨by rw [hn t]; rfl, hs2 (g4 hn).2, by rw [(g4 hn).1, hp]⟩
  · intro k hk1 hk2
    rw [upd_ne _ _ hk1, g7 k hk1 hk2, h3 k hk1]

/-- src/id3v2lib.c:119-128 / 153-164: the temporary file is copied to the file. -/
theorem copyBack_run {tmp : Nat} {nm : Name} {d : Bytes} (e : Faults) {F : Name → File} {S : Nat → Option Stream}
    {n t : Nat} (hlt : tmp < n) (hw : Fresh S n) (hd : S tmp = some (.temp d d.length)) :
    ∃ dest temp lost F' S' n' t' r, (fopen_truncate nm >>= fun fp => fseek (some tmp) 0 >>= fun _ =>
        copyLoop (some tmp) fp >>= fun _ => fclose (some tmp) >>= fun _ => fclose fp) e ⟨F, S, n, t⟩ =
        (⟨F', S', n', t'⟩, r) ∧
      (∀ e' : WriteFaults, e'.dest = dest → e'.temp = temp → e'.destLost = lost →
        copyBack e' (F nm) d = (F' nm, r)) ∧
      (∀ m, m ≠ nm → F' m = F m) ∧ (r = .ok () → S' = upd S tmp none) ∧ n ≤ n' ∧
      (NoFaults e → dest = true ∧ temp = .none ∧ lost = fun _ => false) := by
  rw [cio_bind, fopen_truncate_run]
  by_cases hf : e t = true
  · -- the file cannot be opened
    rw [if_pos hf]
    simp only []
    obtain ⟨S₁, p, hseek, h1⟩ : ∃ S₁ p, fseek (some tmp) 0 e ⟨F, S, n, t + 1⟩ = (⟨F, S₁, n, t + 1 + 1⟩, .ok ()) ∧
        S₁ tmp = some (.temp d p) := by
      rw [fseek_temp 0 e hd]
      by_cases hc : e (t + 1) = true ∨ (0 : Int) < 0
      · rw [if_pos hc]; exact ⟨S, _, rfl, hd⟩
      · rw [if_neg hc]; exact ⟨_, _, rfl, upd_self _ _ _⟩
    obtain ⟨x, S', p', t', r, g1, g2, g3, g4, g5⟩ := copy_temp_to_null e (F := F) (n := n) (t := t + 1 + 1) (d.length - p + 1)
      (by omega) h1
    rw [cio_ok hseek]
    have hc := (copyLoop_temp none e (F := F) (n := n) (t := t + 1 + 1) h1).trans g1
    by_cases hx : x = []
    · rw [if_pos hx] at g3
      subst g3
      rw [cio_ok hc, cio_ok (fclose_run e g4), fclose_null]
      exact ⟨false, .none, fun _ => false, F, _, n, t', _, rfl, fun e' h _ _ => by unfold copyBack; rw [h]; rfl,
        fun _ _ => rfl, fun h => (by cases h), Nat.le_refl n, fun hn => by rw [hn t] at hf; cases hf⟩
    · rw [if_neg hx] at g3
      subst g3
      rw [cio_ub hc]
      exact ⟨false, .none, fun _ => false, F, _, n, t', _, rfl, fun e' h _ _ => by unfold copyBack; rw [h]; rfl,
        fun _ _ => rfl, fun h => (by cases h), Nat.le_refl n, fun hn => by rw [hn t] at hf; cases hf⟩
  · rw [if_neg hf]
    simp only []
    have hne : tmp ≠ n := by omega
    obtain ⟨S₁, p, hseek, h1, h2, h3, h4⟩ : ∃ S₁ p, fseek (some tmp) 0 e
          ⟨upd F nm (some []), upd S n (some (.named nm 0)), n + 1, t + 1⟩ =
          (⟨upd F nm (some []), S₁, n + 1, t + 1 + 1⟩, .ok ()) ∧
        S₁ tmp = some (.temp d p) ∧ S₁ n = some (.named nm ([] : Bytes).length) ∧ (∀ k, k ≠ tmp → k ≠ n → S₁ k = S k) ∧
        d.drop p = if (!e (t + 1)) = true then d else [] := by
      have hd' : upd S n (some (.named nm 0)) tmp = some (.temp d d.length) := by rw [upd_ne _ _ hne, hd]
      rw [fseek_temp 0 e hd']
      by_cases hc : e (t + 1) = true ∨ (0 : Int) < 0
      · rw [if_pos hc]
        refine ⟨_, d.length, rfl, hd', upd_self _ _ _, fun k _ hk => upd_ne _ _ hk, ?_⟩
        rcases hc with hc | hc
        · simp [hc]
        · omega
      · rw [if_neg hc]
        refine ⟨_, 0, rfl, upd_self _ _ _, by rw [upd_ne _ _ hne.symm, upd_self]; rfl,
          fun k hk1 hk2 => by rw [upd_ne _ _ hk1, upd_ne _ _ hk2], ?_⟩
        rw [if_pos]
        · rfl
        · cases h : e (t + 1) <;> simp [h] at hc ⊢
    obtain ⟨x, y, F', S', p', t', g1, g2, g3, g4, g5, g6, g7, g8, g9⟩ := copy_to_file e (n := n + 1) (t := t + 1 + 1) hne
      (d.length - p + 1) (by omega) h1 h2 (upd_self F nm (some []))
    obtain ⟨stops, hs1, hs2⟩ := prefix_stops g2 true (!e (t + 1))
    obtain ⟨lost, hl1, hl2⟩ := sublist_lost g3
    rw [cio_ok hseek, cio_ok ((copyLoop_temp _ e h1).trans g1), cio_ok (fclose_run e g5),
      fclose_run e (s := .named nm ([] ++ y).length) (by rw [upd_ne _ _ hne.symm, g6])]
    refine ⟨true, ⟨true, !e (t + 1), stops⟩, lost, F', _, n + 1, t', _, rfl, ?_, ?_, ?_, by omega, ?_⟩
    · intro e' a1 a2 a3
      unfold copyBack
      rw [a1, a2, a3, if_pos rfl, g7]
      simp only []
      rw [← h4, hs1, hl1]
      rfl
    · intro m hm; rw [g8 m hm, upd_ne _ _ hm]
    · intro _
      funext k
      by_cases hk1 : k = n
      · subst hk1; rw [upd_self, upd_ne _ _ hne.symm, hw k (Nat.le_refl k)]
      · rw [upd_ne _ _ hk1]
        by_cases hk2 : k = tmp
        · subst hk2; rw [upd_self, upd_self]
        · rw [upd_ne _ _ hk2, upd_ne _ _ hk2, g9 k hk2 hk1, h3 k hk2 hk1]
    · intro hn
      refine ⟨rfl, ?_, hl2 ((g4 hn).1.trans (g4 hn).2.symm)⟩
      rw [hs2 (g4 hn).2, hn (t + 1)]; rfl

theorem tail_assoc {α β : Type} (m : CIO α) (k : α → CIO Unit) (j : α → CIO β) (a : β) (e : Faults) (w : Sys)
    (h : ∀ x w, (fun z : Sys × Res Unit => (z.1, z.2 >>= fun _ => (.ok a : Res β))) (k x e w) = j x e w) :
    (fun z : Sys × Res Unit => (z.1, z.2 >>= fun _ => (.ok a : Res β))) ((m >>= k) e w) = (m >>= j) e w := by
  rw [cio_bind, cio_bind]
  rcases h1 : m e w with ⟨w', r⟩
  cases r <;> simp
  exact h _ _

/-- src/id3v2lib.c:102-130, from the call of `tmpfile`. -/
theorem write_tail_run (name : Name) (original_size : Int) (bytes : Bytes) (tag : Tag) (e : Faults) (F : Name → File)
    (S : Nat → Option Stream) (n t : Nat) (hw : Fresh S n) :
    ∃ tmp tmpLost source dest temp destLost F' S' n' t' r,
      (tmpfile >>= fun temp_fp => fwrite bytes temp_fp >>= fun _ => fopen_existing name >>= fun dest_fp =>
        fseek dest_fp original_size >>= fun _ => copyLoop dest_fp temp_fp >>= fun _ => fclose dest_fp >>= fun _ =>
        fopen_truncate name >>= fun dest_fp => fseek temp_fp 0 >>= fun _ => copyLoop temp_fp dest_fp >>= fun _ =>
        fclose temp_fp >>= fun _ => fclose dest_fp >>= fun _ => pure tag) e ⟨F, S, n, t⟩ = (⟨F', S', n', t'⟩, r) ∧
      (∀ e' : WriteFaults, e'.tmp = tmp → e'.tmpLost = tmpLost → e'.source = source → e'.dest = dest → e'.temp = temp →
        e'.destLost = destLost →
        (if ¬ e'.tmp then (F name, .ub .nullDeref)
          else match e'.source.open (F name) with
            | none => (F name, .ub .nullDeref)
            | some contents =>
              let rest := e'.source.deliver (contents.drop (if e'.source.seeks then original_size.toNat else 0))
              let (file', r) := copyBack e' (F name) (land e'.tmpLost 0 (bytes ++ rest))
              (file', r >>= fun _ => .ok tag)) = (F' name, r)) ∧
      (∀ m, m ≠ name → F' m = F m) ∧ ((∃ a, r = .ok a) → S' = S) ∧ n ≤ n' ∧
      (NoFaults e → tmp = true ∧ tmpLost = (fun _ => false) ∧ source = .none ∧ dest = true ∧ temp = .none ∧
        destLost = fun _ => false) := by
  rw [cio_bind, tmpfile_run]
  by_cases hf : e t = true
  · rw [if_pos hf]
    simp only []
    rw [cio_ub (fwrite_null _ _ _)]
    refine ⟨false, fun _ => false, .none, true, .none, fun _ => false, F, S, n, t + 1, _, rfl, ?_, fun _ _ => rfl,
      fun ⟨_, h⟩ => (by cases h), Nat.le_refl n, fun hn => ?_⟩
    · intro e' a1 _ _ _ _ _
      rw [a1, if_pos (by simp)]
    · rw [hn t] at hf; cases hf
  · rw [if_neg hf]
    simp only []
    obtain ⟨x, S₁, t₁, h1, h2, h3, h4, h5⟩ := fwrite_run (h := n) e (F := F) (n := n + 1) bytes (c := [])
      (S := upd S n (some (.temp [] 0))) (t := t + 1) (upd_self _ _ _)
    rw [List.nil_append] at h4
    have hw1 : Fresh S₁ (n + 1) := fun k hk => by rw [h5 k (by omega), upd_ne _ _ (by omega), hw k (by omega)]
    rw [cio_ok h1, cio_bind, fopen_existing_run]
    by_cases ho : e t₁ = true ∨ F name = none
    · rw [if_pos ho]
      simp only []
      rw [cio_ub (fseek_null _ _ _)]
      refine ⟨true, fun _ => false, ⟨!e t₁, true, .none⟩, true, .none, fun _ => false, F, S₁, n + 1, t₁ + 1, _, rfl, ?_,
        fun _ _ => rfl, fun ⟨_, h⟩ => (by cases h), by omega, fun hn => ⟨rfl, rfl, by rw [hn t₁]; rfl, rfl, rfl, rfl⟩⟩
      intro e' a1 _ a3 _ _ _
      have hopen : e'.source.open (F name) = none := by
        rw [a3]
        unfold ReadFaults.open
        rcases ho with ho | ho
        · simp [ho]
        · cases e t₁ <;> simp [ho]
      rw [a1, if_neg (by simp), hopen]
    · rw [if_neg ho]
      simp only []
      obtain ⟨c, hc⟩ : ∃ c, F name = some c := by
        cases h : F name with
        | none => exact absurd (.inr h) ho
        | some c => exact ⟨c, rfl⟩
      have hne : n + 1 ≠ n := by omega
      obtain ⟨seeks, stops, y, S₂, t₂, g1, g2, g3, g4, g5, g6⟩ := save_run (src := n + 1) (tmp := n) (nm := name) original_size
        (fopen_truncate name >>= fun dest_fp => fseek (some n) 0 >>= fun _ => copyLoop (some n) dest_fp >>= fun _ =>
          fclose (some n) >>= fun _ => fclose dest_fp >>= fun _ => (pure tag : CIO Tag)) e (n := n + 1 + 1) (t := t₁ + 1)
        (S := upd S₁ (n + 1) (some (.named name 0))) hne (upd_self _ _ _) (by rw [upd_ne _ _ hne.symm, h4]) hc
      rw [g1]
      have hw2 : Fresh S₂ (n + 1 + 1) := fun k hk => by
        rw [g6 k (by omega) (by omega), upd_ne _ _ (by omega), hw1 k (by omega)]
      obtain ⟨dest, temp, lost, F', S', n', t', r, k1, k2, k3, k4, k5, k6⟩ := copyBack_run (nm := name) e (F := F) (t := t₂)
        (by omega : n < n + 1 + 1) hw2 g5
      obtain ⟨tl, htl1, htl2⟩ := sublist_lost (List.Sublist.append h2 g2)
      have assoc : (fopen_truncate name >>= fun dest_fp => fseek (some n) 0 >>= fun _ => copyLoop (some n) dest_fp >>= fun _ =>
          fclose (some n) >>= fun _ => fclose dest_fp >>= fun _ => (pure tag : CIO Tag)) e ⟨F, S₂, n + 1 + 1, t₂⟩ =
          (⟨F', S', n', t'⟩, r >>= fun _ => .ok tag) := by
        have := congrArg (fun z : Sys × Res Unit => (z.1, z.2 >>= fun _ => (.ok tag : Res Tag))) k1
        simp only [] at this
        rw [← this]
        refine (tail_assoc _ _ _ _ _ _ fun x w => ?_).symm
        refine tail_assoc _ _ _ _ _ _ fun _ w => ?_
        refine tail_assoc _ _ _ _ _ _ fun _ w => ?_
        refine tail_assoc _ _ _ _ _ _ fun _ w => ?_
        rw [cio_bind]
        rcases h1 : fclose x e w with ⟨w', r⟩
        cases r <;> simp [cio_pure]
      rw [assoc]
      refine ⟨true, tl, ⟨true, seeks, stops⟩, dest, temp, lost, F', S', n', t', _, rfl, ?_, k3, ?_, by omega, ?_⟩
      · intro e' a1 a2 a3 a4 a5 a6
        rw [a1, if_neg (by simp), a3]
        unfold ReadFaults.open
        rw [if_pos rfl, hc]
        simp only []
        rw [a2, htl1, ← hc, k2 e' a4 a5 a6]
      · rintro ⟨a, hr⟩
        have : r = .ok () := by cases r <;> simp at hr ⊢
        rw [k4 this]
        funext k
        by_cases hk : k = n
        · subst hk; rw [upd_self, hw k (Nat.le_refl k)]
        · rw [upd_ne _ _ hk]
          by_cases hk2 : k = n + 1
          · subst hk2; rw [g4, hw _ (by omega)]
          · rw [g6 k hk2 hk, upd_ne _ _ hk2, h5 k hk, upd_ne _ _ hk]
      · intro hn
        obtain ⟨b1, b2, b3⟩ := g3 hn
        obtain ⟨b4, b5, b6⟩ := k6 hn
        subst b1 b2
        refine ⟨rfl, htl2 ?_, rfl, b4, b5, b6⟩
        rw [h3 hn, b3]; rfl

theorem write_os_run [Platform] (name : Name) (tag : Tag) (e : Faults) (F : Name → File) (S : Nat → Option Stream) (n t : Nat)
    (hw : Fresh S n) :
    ∃ e' F' S' n' t' r, ID3v2_write_tag_os name tag e ⟨F, S, n, t⟩ = (⟨F', S', n', t'⟩, r) ∧
      ID3v2_write_tag_io e' (F name) tag = (F' name, r) ∧ (∀ m, m ≠ name → F' m = F m) ∧
      ((∃ a, r = .ok a) → S' = S) ∧ n ≤ n' ∧ (NoFaults e → e' = .none) := by
  obtain ⟨eh, n₁, t₁, h1, hn1, hnf1⟩ := header_os_run name e F S n t hw
  have hw1 := hw.mono hn1
  have hdef : NoFaults e → (⟨eh, true, fun _ => false, .none, true, .none, fun _ => false⟩ : WriteFaults) = .none :=
    fun hn => by rw [hnf1 hn]; rfl
  -- how the function ends if it does not get to the files
  have early : ∀ (x : Res (Int × Tag × Bytes)) (r : Res Tag) (w : Sys), write_prepare eh (F name) tag = x →
      (x = .exit ∧ r = .exit) ∨ (x = .diverge ∧ r = .diverge) ∨ (∃ k, x = .ub k ∧ r = .ub k) → w.files = F → n ≤ w.next →
      ∃ e' F' S' n' t' r', (w, r) = ((⟨F', S', n', t'⟩, r') : Sys × Res Tag) ∧
      ID3v2_write_tag_io e' (F name) tag = (F' name, r') ∧ (∀ m, m ≠ name → F' m = F m) ∧
      ((∃ a, r' = .ok a) → S' = S) ∧ n ≤ n' ∧ (NoFaults e → e' = .none) := by
    intro x r w hx h hF hn
    refine ⟨⟨eh, true, fun _ => false, .none, true, .none, fun _ => false⟩, F, w.streams, w.next, w.time, r, by rw [← hF], ?_,
      fun _ _ => rfl, ?_, hn, hdef⟩
    · unfold ID3v2_write_tag_io
      rw [hx]
      rcases h with ⟨rfl, rfl⟩ | ⟨rfl, rfl⟩ | ⟨k, rfl, rfl⟩ <;> rfl
    · rintro ⟨a, rfl⟩
      rcases h with ⟨_, h⟩ | ⟨_, h⟩ | ⟨k, _, h⟩ <;> cases h
  unfold ID3v2_write_tag_os
  rw [cio_bind, h1]
  have hprep : write_prepare eh (F name) tag = existingTagSize_io eh (F name) >>= fun original_size =>
      ck (2048 - tag.padding_size) >>= fun x => ck (tag.padding_size + clamp_int x 0 2048) >>= fun p =>
      Tag_to_char_stream { tag with padding_size := p } >>= fun cs => memcpySrc cs.stream cs.size >>= fun b =>
      .ok (original_size, { tag with padding_size := p }, b) := rfl
  unfold existingTagSize_io at hprep
  cases hr : ID3v2_read_tag_header_io eh (F name) with
  | ub k => exact early _ _ _ (by rw [hprep, hr]; rfl) (.inr (.inr ⟨k, rfl, rfl⟩)) rfl hn1
  | exit => exact early _ _ _ (by rw [hprep, hr]; rfl) (.inl ⟨rfl, rfl⟩) rfl hn1
  | diverge => exact early _ _ _ (by rw [hprep, hr]; rfl) (.inr (.inl ⟨rfl, rfl⟩)) rfl hn1
  | ok hd =>
    have hprep : write_prepare eh (F name) tag =
      ck (2048 - tag.padding_size) >>= fun x => ck (tag.padding_size + clamp_int x 0 2048) >>= fun p =>
      Tag_to_char_stream { tag with padding_size := p } >>= fun cs => memcpySrc cs.stream cs.size >>= fun b =>
      .ok (originalSize hd, { tag with padding_size := p }, b) := by
      rw [hprep, hr]
      cases hd <;> rfl
    simp only []
    generalize originalSize hd = original_size at hprep ⊢
    rw [cio_bind, pureRes_run]
    cases hc1 : ck (2048 - tag.padding_size) with
    | ub k => exact early _ _ _ (by rw [hprep, hc1]; rfl) (.inr (.inr ⟨k, rfl, rfl⟩)) rfl hn1
    | exit => exact early _ _ _ (by rw [hprep, hc1]; rfl) (.inl ⟨rfl, rfl⟩) rfl hn1
    | diverge => exact early _ _ _ (by rw [hprep, hc1]; rfl) (.inr (.inl ⟨rfl, rfl⟩)) rfl hn1
    | ok x =>
    simp only [hc1, Res.bind_ok] at hprep ⊢
    rw [cio_bind, pureRes_run]
    cases hc2 : ck (tag.padding_size + clamp_int x 0 2048) with
    | ub k => exact early _ _ _ (by rw [hprep, hc2]; rfl) (.inr (.inr ⟨k, rfl, rfl⟩)) rfl hn1
    | exit => exact early _ _ _ (by rw [hprep, hc2]; rfl) (.inl ⟨rfl, rfl⟩) rfl hn1
    | diverge => exact early _ _ _ (by rw [hprep, hc2]; rfl) (.inr (.inl ⟨rfl, rfl⟩)) rfl hn1
    | ok p =>
    simp only [hc2, Res.bind_ok] at hprep ⊢
    rw [cio_bind, pureRes_run]
    cases hc3 : Tag_to_char_stream { tag with padding_size := p } with
    | ub k => exact early _ _ _ (by rw [hprep, hc3]; rfl) (.inr (.inr ⟨k, rfl, rfl⟩)) rfl hn1
    | exit => exact early _ _ _ (by rw [hprep, hc3]; rfl) (.inl ⟨rfl, rfl⟩) rfl hn1
    | diverge => exact early _ _ _ (by rw [hprep, hc3]; rfl) (.inr (.inl ⟨rfl, rfl⟩)) rfl hn1
    | ok cs =>
    simp only [hc3, Res.bind_ok] at hprep ⊢
    cases hc4 : memcpySrc cs.stream cs.size with
    | ub k =>
      obtain ⟨S₂, n₂, t₂, a, ht, hn2⟩ := tmpfile_ok e F S n₁ t₁
      rw [cio_ok ht, cio_bind, pureRes_run]
      exact early _ _ _ (by rw [hprep, hc4]; rfl) (.inr (.inr ⟨k, rfl, rfl⟩)) rfl (by show n ≤ n₂; omega)
    | exit =>
      obtain ⟨S₂, n₂, t₂, a, ht, hn2⟩ := tmpfile_ok e F S n₁ t₁
      rw [cio_ok ht, cio_bind, pureRes_run]
      exact early _ _ _ (by rw [hprep, hc4]; rfl) (.inl ⟨rfl, rfl⟩) rfl (by show n ≤ n₂; omega)
    | diverge =>
      obtain ⟨S₂, n₂, t₂, a, ht, hn2⟩ := tmpfile_ok e F S n₁ t₁
      rw [cio_ok ht, cio_bind, pureRes_run]
      exact early _ _ _ (by rw [hprep, hc4]; rfl) (.inr (.inl ⟨rfl, rfl⟩)) rfl (by show n ≤ n₂; omega)
    | ok bytes =>
      rw [hc4, Res.bind_ok] at hprep
      obtain ⟨tmp, tl, source, dest, temp, dl, F', S', n', t', r, g1, g2, g3, g4, g5, g6⟩ :=
        write_tail_run name original_size bytes { tag with padding_size := p } e F S n₁ t₁ hw1
      refine ⟨⟨eh, tmp, tl, source, dest, temp, dl⟩, F', S', n', t', r, ?_, ?_, g3, ?_, by omega, ?_⟩
      · rw [← g1]
        rw [cio_bind, cio_bind]
        rcases tmpfile e ⟨F, S, n₁, t₁⟩ with ⟨w, z⟩
        cases z with
        | ok fp => simp only []; rw [cio_bind, pureRes_run]
        | _ => rfl
      · unfold ID3v2_write_tag_io
        rw [hprep]
        exact g2 ⟨eh, tmp, tl, source, dest, temp, dl⟩ rfl rfl rfl rfl rfl rfl
      · exact g4
      · intro hn
        obtain ⟨b1, b2, b3, b4, b5, b6⟩ := g6 hn
        rw [hnf1 hn, b1, b2, b3, b4, b5, b6]
        rfl

theorem delete_os_run [Platform] (name : Name) (e : Faults) (F : Name → File) (S : Nat → Option Stream) (n t : Nat)
    (hw : Fresh S n) :
    ∃ e' F' S' n' t' r, ID3v2_delete_tag_os name e ⟨F, S, n, t⟩ = (⟨F', S', n', t'⟩, r) ∧
      ID3v2_delete_tag_io e' (F name) = (F' name, r) ∧ (∀ m, m ≠ name → F' m = F m) ∧
      (r = .ok () → S' = S) ∧ n ≤ n' ∧ (NoFaults e → e' = .none) := by
  obtain ⟨eh, n₁, t₁, h1, hn1, hnf1⟩ := header_os_run name e F S n t hw
  have hw1 := hw.mono hn1
  have hdef : NoFaults e → (⟨eh, true, fun _ => false, .none, true, .none, fun _ => false⟩ : WriteFaults) = .none :=
    fun hn => by rw [hnf1 hn]; rfl
  unfold ID3v2_delete_tag_os
  rw [cio_bind, h1]
  cases hr : ID3v2_read_tag_header_io eh (F name) with
  | ub k =>
    exact ⟨⟨eh, true, fun _ => false, .none, true, .none, fun _ => false⟩, F, S, n₁, t₁, _, rfl,
      by unfold ID3v2_delete_tag_io; rw [hr], fun _ _ => rfl, fun h => (by cases h), hn1, hdef⟩
  | exit =>
    exact ⟨⟨eh, true, fun _ => false, .none, true, .none, fun _ => false⟩, F, S, n₁, t₁, _, rfl,
      by unfold ID3v2_delete_tag_io; rw [hr], fun _ _ => rfl, fun h => (by cases h), hn1, hdef⟩
  | diverge =>
    exact ⟨⟨eh, true, fun _ => false, .none, true, .none, fun _ => false⟩, F, S, n₁, t₁, _, rfl,
      by unfold ID3v2_delete_tag_io; rw [hr], fun _ _ => rfl, fun h => (by cases h), hn1, hdef⟩
  | ok hd =>
    cases hd with
    | none =>
      exact ⟨⟨eh, true, fun _ => false, .none, true, .none, fun _ => false⟩, F, S, n₁, t₁, _, rfl,
        by unfold ID3v2_delete_tag_io; rw [hr], fun _ _ => rfl, fun _ => rfl, hn1, hdef⟩
    | some h =>
      simp only []
      rw [cio_bind, fopen_existing_run]
      by_cases ho : e t₁ = true ∨ F name = none
      · rw [if_pos ho]
        simp only []
        obtain ⟨S₂, n₂, t₂, a, ht, hn2⟩ := tmpfile_ok e F S n₁ (t₁ + 1)
        rw [cio_ok ht, cio_ub (fseek_null _ _ _)]
        refine ⟨⟨eh, true, fun _ => false, ⟨!e t₁, true, .none⟩, true, .none, fun _ => false⟩, F, S₂, n₂, t₂, _, rfl, ?_,
          fun _ _ => rfl, fun h => (by cases h), by omega, fun hn => by rw [hnf1 hn, hn t₁]; rfl⟩
        have hopen : ReadFaults.open ⟨!e t₁, true, .none⟩ (F name) = none := by
          unfold ReadFaults.open
          rcases ho with ho | ho
          · simp [ho]
          · cases e t₁ <;> simp [ho]
        unfold ID3v2_delete_tag_io
        rw [hr]
        simp only [hopen]
      · rw [if_neg ho]
        simp only []
        obtain ⟨c, hc⟩ : ∃ c, F name = some c := by
          cases h : F name with
          | none => exact absurd (.inr h) ho
          | some c => exact ⟨c, rfl⟩
        rw [cio_bind, tmpfile_run]
        by_cases ht : e (t₁ + 1) = true
        · -- no temporary file
          rw [if_pos ht]
          simp only []
          obtain ⟨S₁, p, hseek, k1, k4⟩ : ∃ S₁ p, fseek (some n₁) (u32 (h.tag_size + 10) : Nat) e
                ⟨F, upd S n₁ (some (.named name 0)), n₁ + 1, t₁ + 1 + 1⟩ = (⟨F, S₁, n₁ + 1, t₁ + 1 + 1 + 1⟩, .ok ()) ∧
              S₁ n₁ = some (.named name p) ∧ p = if (!e (t₁ + 1 + 1)) = true then u32 (h.tag_size + 10) else 0 := by
            rw [fseek_named _ e (upd_self _ _ _)]
            by_cases hcc : e (t₁ + 1 + 1) = true ∨ ((u32 (h.tag_size + 10) : Nat) : Int) < 0
            · rw [if_pos hcc]
              refine ⟨_, 0, rfl, upd_self _ _ _, ?_⟩
              rcases hcc with hcc | hcc
              · simp [hcc]
              · omega
            · rw [if_neg hcc]
              refine ⟨_, _, rfl, upd_self _ _ _, ?_⟩
              rw [if_pos]
              · rfl
              · cases h : e (t₁ + 1 + 1) <;> simp [h] at hcc ⊢
          obtain ⟨x, S', p', t', r, g1, g2, g3, g4, g5⟩ := copy_file_to_null e (n := n₁ + 1) (t := t₁ + 1 + 1 + 1) hc
            (c.length - p + 1) (by omega) k1
          obtain ⟨stops, hs1, hs2⟩ := prefix_stops g2 true (!e (t₁ + 1 + 1))
          have hcl := (copyLoop_named none e (n := n₁ + 1) (t := t₁ + 1 + 1 + 1) k1 hc).trans g1
          rw [cio_ok hseek]
          by_cases hx : x = []
          · rw [if_pos hx] at g3
            subst g3
            rw [cio_ok hcl, cio_ok (fclose_run e g4), cio_bind, fopen_truncate_run]
            by_cases hd : e t' = true
            · rw [if_pos hd]
              simp only []
              rw [cio_ub (fseek_null _ _ _)]
              refine ⟨⟨eh, false, fun _ => false, ⟨true, !e (t₁ + 1 + 1), stops⟩, false, .none, fun _ => false⟩, F, _, n₁ + 1,
                t' + 1, _, rfl, ?_, fun _ _ => rfl, fun h => (by cases h), by omega, fun hn => by rw [hn] at ht; cases ht⟩
              unfold ID3v2_delete_tag_io ReadFaults.open
              rw [hr, if_pos rfl, hc]
              simp
            · rw [if_neg hd]
              simp only []
              rw [cio_ub (fseek_null _ _ _)]
              refine ⟨⟨eh, false, fun _ => false, ⟨true, !e (t₁ + 1 + 1), stops⟩, true, .none, fun _ => false⟩, _, _, _,
                t' + 1, _, rfl, ?_, fun m hm => upd_ne _ _ hm, fun h => (by cases h), by omega,
                fun hn => by rw [hn] at ht; cases ht⟩
              unfold ID3v2_delete_tag_io ReadFaults.open
              rw [hr, if_pos rfl, hc, upd_self]
              simp only []
              rw [← k4, hs1, hx]
              rfl
          · rw [if_neg hx] at g3
            subst g3
            rw [cio_ub hcl]
            refine ⟨⟨eh, false, fun _ => false, ⟨true, !e (t₁ + 1 + 1), stops⟩, false, .none, fun _ => false⟩, F, _, n₁ + 1,
              t', _, rfl, ?_, fun _ _ => rfl, fun h => (by cases h), by omega, fun hn => by rw [hn] at ht; cases ht⟩
            unfold ID3v2_delete_tag_io ReadFaults.open
            rw [hr, if_pos rfl, hc]
            simp
        · rw [if_neg ht]
          simp only []
          have hne : n₁ ≠ n₁ + 1 := by omega
          obtain ⟨seeks, stops, y, S₂, t₂, g1, g2, g3, g4, g5, g6⟩ := save_run (src := n₁) (tmp := n₁ + 1) (nm := name)
            (u32 (h.tag_size + 10) : Nat)
            (fopen_truncate name >>= fun file_fp => fseek (some (n₁ + 1)) 0 >>= fun _ => copyLoop (some (n₁ + 1)) file_fp >>= fun _ =>
              fclose (some (n₁ + 1)) >>= fun _ => fclose file_fp) e (n := n₁ + 1 + 1) (t := t₁ + 1 + 1) (d := [])
            (S := upd (upd S n₁ (some (.named name 0))) (n₁ + 1) (some (.temp [] 0))) hne
            (by rw [upd_ne _ _ hne, upd_self]) (upd_self _ _ _) hc
          rw [g1]
          have hw2 : Fresh S₂ (n₁ + 1 + 1) := fun k hk => by
            rw [g6 k (by omega) (by omega), upd_ne _ _ (by omega), upd_ne _ _ (by omega), hw1 k (by omega)]
          obtain ⟨dest, temp, lost, F', S', n', t', r, k1, k2, k3, k4, k5, k6⟩ := copyBack_run (nm := name) e (F := F)
            (t := t₂) (by omega : n₁ + 1 < n₁ + 1 + 1) hw2 g5
          obtain ⟨tl, htl1, htl2⟩ := sublist_lost g2
          rw [k1]
          refine ⟨⟨eh, true, tl, ⟨true, seeks, stops⟩, dest, temp, lost⟩, F', S', n', t', r, rfl, ?_, k3, ?_, by omega, ?_⟩
          · unfold ID3v2_delete_tag_io ReadFaults.open
            rw [hr, if_pos rfl, hc]
            simp only []
            rw [if_pos trivial]
            have htl1' : land tl 0 (ReadFaults.deliver ⟨true, seeks, stops⟩
                (c.drop (if seeks = true then u32 (h.tag_size + 10) else 0))) = y := htl1
            rw [htl1', ← hc]
            exact k2 ⟨eh, true, tl, ⟨true, seeks, stops⟩, dest, temp, lost⟩ rfl rfl rfl
          · intro hrr
            rw [k4 hrr]
            funext k
            by_cases hk : k = n₁ + 1
            · subst hk; rw [upd_self, hw1 _ (by omega)]
            · rw [upd_ne _ _ hk]
              by_cases hk2 : k = n₁
              · subst hk2; rw [g4, hw1 _ (by omega)]
              · rw [g6 k hk2 hk, upd_ne _ _ hk, upd_ne _ _ hk2]
          · intro hn
            obtain ⟨b1, b2, b3⟩ := g3 hn
            obtain ⟨b4, b5, b6⟩ := k6 hn
            subst b1 b2
            have : tl = fun _ => false := htl2 (by rw [b3]; rfl)
            rw [hnf1 hn, this, b4, b5, b6]
            rfl

end Id3

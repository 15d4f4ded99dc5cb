import Verif.Spec.Files
import Verif.Proof.World
import Verif.Proof.NoMemCompat
import Verif.Props.Fault

/-!
# Files and streams (C68, C69)
-/

namespace Id3.Props

open Id3 Spec

set_option linter.unusedSimpArgs false

theorem nomem_header_io [Platform] (e : ReadFaults) (f : File) : NoMem (ID3v2_read_tag_header_io e f) := by
  have := fun b => nomem_read_header_buffer b
  unfold ID3v2_read_tag_header_io
  nomem

theorem nomem_read_io [Platform] (h b : ReadFaults) (al : Bool) (f : File) : NoMem (ID3v2_read_tag_io h b al f) := by
  have := nomem_header_io h f
  unfold ID3v2_read_tag_io
  have := fun b n => nomem_read_buffer b n
  nomem

theorem nomem_prepare [Platform] (e : ReadFaults) (f : File) (t : Tag) : NoMem (write_prepare e f t) := by
  have h1 := nomem_header_io e f
  unfold write_prepare existingTagSize_io
  refine .bind ?_ fun _ => .bind (nomem_ck _) fun _ => .bind (nomem_ck _) fun _ => .bind (nomem_tag_out _) fun _ =>
    .bind (nomem_memcpySrc _ _) fun _ => .pure _
  nomem

theorem nomem_copyBack (e : WriteFaults) (f : File) (t : Bytes) : NoMem (copyBack e f t).2 := by
  unfold copyBack
  split
  · exact .ok _
  · exact .ub (by decide)

theorem nomem_write_io [Platform] (e : WriteFaults) (f : File) (t : Tag) : NoMem (ID3v2_write_tag_io e f t).2 := by
  have h1 := nomem_prepare e.header f t
  unfold ID3v2_write_tag_io
  split
  · next h => rw [h] at h1; exact ⟨h1.1 ∘ (by rintro h; cases h; rfl), h1.2 ∘ (by rintro h; cases h; rfl)⟩
  · exact .exit
  · exact .diverge
  · split
    · exact .ub (by decide)
    · split
      · exact .ub (by decide)
      · exact .bind (nomem_copyBack _ _ _) fun _ => .ok _

theorem nomem_delete_io [Platform] (e : WriteFaults) (f : File) : NoMem (ID3v2_delete_tag_io e f).2 := by
  have h1 := nomem_header_io e.header f
  unfold ID3v2_delete_tag_io
  split
  · next h => rw [h] at h1; exact ⟨h1.1 ∘ (by rintro h; cases h; rfl), h1.2 ∘ (by rintro h; cases h; rfl)⟩
  · exact .exit
  · exact .diverge
  · exact .ok _
  · split
    · exact .ub (by decide)
    · dsimp only
      by_cases h2 : e.tmp = true
      · rw [if_pos h2]; exact nomem_copyBack _ _ _
      · rw [if_neg h2]
        rw [apply_ite Prod.snd]
        exact (ite_self (Res.ub UB.nullDeref : Res Unit)).symm ▸ .ub (k := .nullDeref) (by decide)

/-- What is true of every call. -/
def Neat (name : Name) (F F' : Name → File) (S S' : Nat → Option Stream) (n n' : Nat) {α : Type} (r : Res α) : Prop :=
  (∀ m, m ≠ name → F' m = F m) ∧ ((∃ a, r = .ok a) → S' = S) ∧ NoMem r ∧ n ≤ n'

/-- The effect of a call on its file is `x`, and nothing happens if the call does not return. -/
def Effect {α : Type} (f f' : File) (r : Res α) (x : Res (File × α)) : Prop :=
  match x with
  | .ok (g, a) => f' = g ∧ r = .ok a
  | .ub k => f' = f ∧ r = .ub k
  | .exit => f' = f ∧ r = .exit
  | .diverge => f' = f ∧ r = .diverge

theorem load_os_run [Platform] (name : Name) (e : Faults) (F : Name → File) (S : Nat → Option Stream) (n t : Nat)
    (hw : Fresh S n) :
    ∃ S' n' t' r, load_tag_os name e ⟨F, S, n, t⟩ = (⟨F, S', n', t'⟩, r) ∧ ((∃ a, r = .ok a) → S' = S) ∧ NoMem r ∧
      n ≤ n' ∧ (NoFaults e → r = load_tag (F name)) := by
  obtain ⟨eh, n₁, t₁, h1, hn1, hnf1⟩ := header_os_run name e F S n t hw
  have hw1 := hw.mono hn1
  have hm := nomem_header_io eh (F name)
  unfold load_tag_os load_tag
  rw [cio_bind, h1]
  have hh : NoFaults e → ID3v2_read_tag_header (F name) = ID3v2_read_tag_header_io eh (F name) :=
    fun hn => by rw [hnf1 hn, header_io_none]
  cases hr : ID3v2_read_tag_header_io eh (F name) with
  | ub k =>
    rw [hr] at hm hh
    exact ⟨S, n₁, t₁, _, rfl, fun _ => rfl, ⟨fun h => hm.1 (by cases h; rfl), fun h => hm.2 (by cases h; rfl)⟩, hn1,
      fun hn => by rw [hh hn]; rfl⟩
  | exit => exact ⟨S, n₁, t₁, _, rfl, fun _ => rfl, .exit, hn1, fun hn => by rw [hh hn, hr]; rfl⟩
  | diverge => exact ⟨S, n₁, t₁, _, rfl, fun _ => rfl, .diverge, hn1, fun hn => by rw [hh hn, hr]; rfl⟩
  | ok hd =>
    rw [hr] at hh
    simp only []
    rw [cio_bind, fopen_existing_run]
    by_cases hf : e t₁ = true ∨ F name = none
    · rw [if_pos hf]
      cases hd with
      | none =>
        exact ⟨S, n₁, t₁ + 1, _, rfl, fun _ => rfl, .ub (by decide), hn1, fun hn => by rw [hh hn]; rfl⟩
      | some h =>
        simp only []
        rw [fread_close_null]
        refine ⟨S, n₁, t₁ + 1, _, rfl, fun _ => rfl, .ub (by decide), hn1, fun hn => ?_⟩
        have hF : F name = none := by rcases hf with hf | hf
                                      · rw [hn] at hf; cases hf
                                      · exact hf
        rw [hh hn, hF]; rfl
    · rw [if_neg hf]
      cases hd with
      | none =>
        exact ⟨_, _, _, _, rfl, fun ⟨_, h⟩ => (by cases h), .ub (by decide), by omega, fun hn => by rw [hh hn]; rfl⟩
      | some h =>
        simp only []
        obtain ⟨c, hc⟩ : ∃ c, F name = some c := by
          cases h : F name with
          | none => exact absurd (.inr h) hf
          | some c => exact ⟨c, rfl⟩
        obtain ⟨x, S', p', t', g1, g2, g3, g4, g5⟩ := fread_run (toInt32 (u32 (h.tag_size + 10))).toNat e (n := n₁ + 1)
          (t := t₁ + 1) hc (S := upd S n₁ (some (.named name 0))) (h := n₁) (p := 0) (upd_self _ _ _)
        rw [List.drop_zero] at g2 g3
        have hback : upd S' n₁ none = S := upd_back (hw1 n₁ (Nat.le_refl n₁)) fun k hk => by rw [g5 k hk, upd_ne _ _ hk]
        rw [cio_ok g1, cio_ok (fclose_run e g4), hback, pureRes_run]
        refine ⟨S, n₁ + 1, t', _, rfl, fun _ => rfl, nomem_load_buffer _ _, by omega, fun hn => ?_⟩
        rw [hh hn, hc, g3 hn]; rfl

theorem cover_os_run [Platform] (name : Name) (tag : CTag) (e : Faults) (F : Name → File) (S : Nat → Option Stream)
    (n t : Nat) (hw : Fresh S n) :
    ∃ S' n' t' r, tag_set_album_cover_os name tag e ⟨F, S, n, t⟩ = (⟨F, S', n', t'⟩, r) ∧ ((∃ a, r = .ok a) → S' = S) ∧
      NoMem r ∧ n ≤ n' ∧ (NoFaults e → r = tag_set_album_cover name (F name) tag) := by
  unfold tag_set_album_cover_os
  rw [cio_bind, fopen_existing_run]
  by_cases hf : e t = true ∨ F name = none
  · rw [if_pos hf]
    simp only []
    rw [cio_ub (fseek_end_null _ _)]
    refine ⟨S, n, t + 1, _, rfl, fun _ => rfl, .ub (by decide), Nat.le_refl n, fun hn => ?_⟩
    have hF : F name = none := by rcases hf with hf | hf
                                  · rw [hn] at hf; cases hf
                                  · exact hf
    rw [hF]; rfl
  · rw [if_neg hf]
    simp only []
    obtain ⟨c, hc⟩ : ∃ c, F name = some c := by
      cases h : F name with
      | none => exact absurd (.inr h) hf
      | some c => exact ⟨c, rfl⟩
    rw [cio_ok (fseek_end_named e (S := upd S n (some (.named name 0))) (p := 0) (upd_self _ _ _) hc)]
    obtain ⟨S₁, p₁, hS₁, h1, h1o, h1n⟩ : ∃ S₁ p₁,
        (if e (t + 1) = true then upd S n (some (.named name 0)) else upd (upd S n (some (.named name 0))) n (some (.named name c.length)))
          = S₁ ∧ S₁ n = some (.named name p₁) ∧ (∀ k, k ≠ n → S₁ k = S k) ∧ (NoFaults e → p₁ = c.length) := by
      by_cases h : e (t + 1) = true
      · rw [if_pos h]
        exact ⟨_, 0, rfl, upd_self _ _ _, fun k hk => upd_ne _ _ hk, fun hn => by rw [hn] at h; cases h⟩
      · rw [if_neg h]
        exact ⟨_, c.length, rfl, upd_self _ _ _, fun k hk => by rw [upd_ne _ _ hk, upd_ne _ _ hk], fun _ => rfl⟩
    rw [hS₁, cio_ok (ftell_named e h1), cio_bind, pureRes_run]
    have hpos : NoFaults e → (if e (t + 1 + 1) = true then (-1 : Int) else p₁) = c.length := by
      intro hn
      rw [hn, if_neg (by simp), h1n hn]
    generalize (if e (t + 1 + 1) = true then (-1 : Int) else p₁) = position at hpos
    have hv : NoFaults e → tag_set_album_cover name (F name) tag = (ck position >>= fun image_size =>
        match afterLastDot name with
        | none => .ub .nullDeref
        | some ext => tag_set_album_cover_from_bytes c
            (if ext = [0x70, 0x6E, 0x67] then lit [0x69, 0x6D, 0x61, 0x67, 0x65, 0x2F, 0x70, 0x6E, 0x67]
              else lit [0x69, 0x6D, 0x61, 0x67, 0x65, 0x2F, 0x6A, 0x70, 0x65, 0x67]) image_size tag) := by
      intro hn
      rw [hc, hpos hn]
      rfl
    have hck := nomem_ck position
    cases hk : ck position with
    | ub k =>
      rw [hk] at hck hv
      exact ⟨S₁, n + 1, _, _, rfl, fun ⟨_, h⟩ => (by cases h),
        ⟨fun h => hck.1 (by cases h; rfl), fun h => hck.2 (by cases h; rfl)⟩, by omega, fun hn => by rw [hv hn]; rfl⟩
    | exit => exact ⟨S₁, n + 1, _, _, rfl, fun ⟨_, h⟩ => (by cases h), .exit, by omega, fun hn => by rw [hv hn, hk]; rfl⟩
    | diverge => exact ⟨S₁, n + 1, _, _, rfl, fun ⟨_, h⟩ => (by cases h), .diverge, by omega, fun hn => by rw [hv hn, hk]; rfl⟩
    | ok size =>
      rw [hk, ] at hv
      simp only [Res.bind_ok] at hv
      have hsize : size = position := by
        unfold ck at hk
        split at hk
        · cases hk; rfl
        · cases hk
      subst hsize
      simp only []
      obtain ⟨S₂, p₂, t₂, g1, g2, g2o, g2n⟩ : ∃ S₂ p₂ t₂, fseek (some n) 0 e ⟨F, S₁, n + 1, t + 1 + 1 + 1⟩ =
          (⟨F, S₂, n + 1, t₂⟩, .ok ()) ∧ S₂ n = some (.named name p₂) ∧ (∀ k, k ≠ n → S₂ k = S k) ∧ (NoFaults e → p₂ = 0) := by
        rw [fseek_named 0 e h1]
        by_cases h : e (t + 1 + 1 + 1) = true ∨ (0 : Int) < 0
        · rw [if_pos h]
          refine ⟨S₁, p₁, _, rfl, h1, h1o, fun hn => ?_⟩
          rcases h with h | h
          · rw [hn] at h; cases h
          · omega
        · rw [if_neg h]
          exact ⟨_, 0, _, rfl, upd_self _ _ _, fun k hk => by rw [upd_ne _ _ hk, h1o k hk], fun _ => rfl⟩
      rw [cio_ok g1]
      by_cases hneg : size < 0
      · rw [if_pos hneg, pureRes_run]
        exact ⟨S₂, n + 1, _, _, rfl, fun ⟨_, h⟩ => (by cases h), .ub (by decide), by omega,
          fun hn => by have := hpos hn; omega⟩
      · rw [if_neg hneg]
        obtain ⟨x, S', p', t', i1, i2, i3, i4, i5⟩ := fread_run size.toNat e (n := n + 1) (t := t₂) hc g2
        have hback : upd S' n none = S := upd_back (hw n (Nat.le_refl n)) fun k hk => by rw [i5 k hk, g2o k hk]
        rw [cio_ok i1, cio_ok (fclose_run e i4), hback]
        cases hd : afterLastDot name with
        | none =>
          simp only [pureRes_run]
          exact ⟨S, n + 1, t', _, rfl, fun _ => rfl, .ub (by decide), by omega, fun hn => by rw [hv hn, hd]⟩
        | some ext =>
          simp only [pureRes_run]
          refine ⟨S, n + 1, t', _, rfl, fun _ => rfl, nomem_set_cover_ctag _ _ _ _, by omega, fun hn => ?_⟩
          have hx : intoArray size x = c := by
            rw [i3 hn, g2n hn, List.drop_zero, hpos hn]
            unfold intoArray
            simp
          rw [hv hn, hd, hx]

/-- A call, followed by an answer. -/
theorem answer_run {α β : Type} {m : CIO α} {e : Faults} {w w' : Sys} {r : Res α} (g : α → β) (h : m e w = (w', r)) :
    (m >>= fun a => pure (g a)) e w = (w', r >>= fun a => .ok (g a)) := by
  rw [cio_bind, h]
  cases r <;> simp [cio_pure]

theorem Neat.map {name : Name} {F F' : Name → File} {S S' : Nat → Option Stream} {n n' : Nat} {α β : Type} {r : Res α}
    (g : α → β) (h : Neat name F F' S S' n n' r) : Neat name F F' S S' n n' (r >>= fun a => .ok (g a)) := by
  refine ⟨h.1, fun ⟨a, ha⟩ => h.2.1 ?_, .bind h.2.2.1 fun _ => .ok _, h.2.2.2⟩
  obtain ⟨b, hb, -⟩ := Res.bind_eq_ok.mp ha
  exact ⟨b, hb⟩

theorem Effect.map {α β : Type} {f f' : File} {r : Res α} {x : Res (File × α)} (g : α → β) (h : Effect f f' r x) :
    Effect f f' (r >>= fun a => .ok (g a)) (x >>= fun p => .ok (p.1, g p.2)) := by
  unfold Effect at h ⊢
  cases x with
  | ok p => obtain ⟨h, rfl⟩ := h; exact ⟨h, rfl⟩
  | ub k => obtain ⟨h, rfl⟩ := h; exact ⟨h, rfl⟩
  | exit => obtain ⟨h, rfl⟩ := h; exact ⟨h, rfl⟩
  | diverge => obtain ⟨h, rfl⟩ := h; exact ⟨h, rfl⟩

theorem bind_pair {α β : Type} (x : Res File) (a : α) (g : α → β) :
    ((x >>= fun f => .ok (f, a)) >>= fun p => (.ok (p.1, g p.2) : Res (File × β))) = x >>= fun f => .ok (f, g a) := by
  cases x <;> rfl

/-- A call that only reads. -/
theorem Effect.reads {α β : Type} (f : File) (r : Res α) (g : α → β) :
    Effect f f (r >>= fun a => .ok (g a)) (r >>= fun a => .ok (f, g a)) := by
  unfold Effect
  cases r <;> exact ⟨rfl, rfl⟩

theorem call_run [Platform] (c : FileCall) (e : Faults) (F : Name → File) (S : Nat → Option Stream) (n t : Nat)
    (hw : Fresh S n) :
    ∃ F' S' n' t' r, c.run e ⟨F, S, n, t⟩ = (⟨F', S', n', t'⟩, r) ∧ Neat c.name F F' S S' n n' r ∧
      (NoFaults e → Effect (F c.name) (F' c.name) r (c.effect (F c.name))) := by
  have header : ∀ name, ∃ F' S' n' t' r, (FileCall.readHeader name).run e ⟨F, S, n, t⟩ = (⟨F', S', n', t'⟩, r) ∧
      Neat name F F' S S' n n' r ∧ (NoFaults e → Effect (F name) (F' name) r ((FileCall.readHeader name).effect (F name))) := by
    intro name
    obtain ⟨eh, n', t', h1, h2, h3⟩ := header_os_run name e F S n t hw
    refine ⟨F, S, n', t', _, answer_run _ h1, .map _ ⟨fun _ _ => rfl, fun _ => rfl, nomem_header_io _ _, h2⟩, fun hn => ?_⟩
    rw [h3 hn, header_io_none]
    exact Effect.reads (F name) (ID3v2_read_tag_header (F name)) Answer.header
  have write : ∀ name tag, ∃ F' S' n' t' r, ID3v2_write_tag_os name tag e ⟨F, S, n, t⟩ = (⟨F', S', n', t'⟩, r) ∧
      Neat name F F' S S' n n' r ∧ (NoFaults e → Effect (F name) (F' name) r (ID3v2_write_tag (F name) tag)) := by
    intro name tag
    obtain ⟨e', F', S', n', t', r, h1, h2, h3, h4, h5, h6⟩ := write_os_run name tag e F S n t hw
    refine ⟨F', S', n', t', r, h1, ⟨h3, h4, ?_, h5⟩, fun hn => ?_⟩
    · have := nomem_write_io e' (F name) tag
      rw [h2] at this
      exact this
    · rw [h6 hn, write_no_faults] at h2
      unfold Effect
      cases hx : ID3v2_write_tag (F name) tag <;> rw [hx] at h2 <;> exact ⟨(Prod.mk.inj h2).1.symm, (Prod.mk.inj h2).2.symm⟩
  have delete : ∀ name, ∃ F' S' n' t' r, ID3v2_delete_tag_os name e ⟨F, S, n, t⟩ = (⟨F', S', n', t'⟩, r) ∧
      Neat name F F' S S' n n' r ∧
      (NoFaults e → Effect (F name) (F' name) r (ID3v2_delete_tag (F name) >>= fun f => .ok (f, ()))) := by
    intro name
    obtain ⟨e', F', S', n', t', r, h1, h2, h3, h4, h5, h6⟩ := delete_os_run name e F S n t hw
    refine ⟨F', S', n', t', r, h1, ⟨h3, fun ⟨_, h⟩ => h4 h, ?_, h5⟩, fun hn => ?_⟩
    · have := nomem_delete_io e' (F name)
      rw [h2] at this
      exact this
    · rw [h6 hn, delete_no_faults] at h2
      unfold Effect
      cases hx : ID3v2_delete_tag (F name) <;> rw [hx] at h2 <;> exact ⟨(Prod.mk.inj h2).1.symm, (Prod.mk.inj h2).2.symm⟩
  cases c with
  | readHeader name => exact header name
  | read name =>
    obtain ⟨eh, eb, al, n', t', h1, h2, h3⟩ := read_os_run name e F S n t hw
    refine ⟨F, S, n', t', _, answer_run _ h1, .map _ ⟨fun _ _ => rfl, fun _ => rfl, nomem_read_io _ _ _ _, h2⟩, fun hn => ?_⟩
    obtain ⟨rfl, rfl, rfl⟩ := h3 hn
    rw [read_no_faults]
    exact Effect.reads (F name) (ID3v2_read_tag (F name)) Answer.tag
  | write name tag =>
    obtain ⟨F', S', n', t', r, h1, h2, h3⟩ := write name tag
    exact ⟨F', S', n', t', _, answer_run _ h1, .map _ h2, fun hn => Effect.map Answer.written (h3 hn)⟩
  | delete name =>
    obtain ⟨F', S', n', t', r, h1, h2, h3⟩ := delete name
    refine ⟨F', S', n', t', _, answer_run _ h1, .map _ h2, fun hn => ?_⟩
    have := (h3 hn).map fun _ => Answer.done
    rw [show ((ID3v2_delete_tag (F name) >>= fun f => .ok (f, ())) >>= fun p => (.ok (p.1, Answer.done) : Res (File × Answer)))
      = ID3v2_delete_tag (F name) >>= fun f => .ok (f, Answer.done) from bind_pair _ _ (fun _ => Answer.done)] at this
    exact this
  | load name =>
    obtain ⟨S', n', t', r, h1, h2, h3, h4, h5⟩ := load_os_run name e F S n t hw
    refine ⟨F, S', n', t', _, answer_run _ h1, .map _ ⟨fun _ _ => rfl, h2, h3, h4⟩, fun hn => ?_⟩
    rw [h5 hn]
    exact Effect.reads (F name) (load_tag (F name)) Answer.loaded
  | set name tag =>
    obtain ⟨F', S', n', t', r, h1, h2, h3⟩ := write name tag.tag
    refine ⟨F', S', n', t', _, answer_run _ (answer_run (fun t => ({ tag with tag := t } : CTag)) h1), .map _ (.map _ h2),
      fun hn => ?_⟩
    exact Effect.map Answer.loaded (Effect.map (fun t => ({ tag with tag := t } : CTag)) (h3 hn))
  | cover name tag =>
    obtain ⟨S', n', t', r, h1, h2, h3, h4, h5⟩ := cover_os_run name tag e F S n t hw
    refine ⟨F, S', n', t', _, answer_run _ h1, .map _ ⟨fun _ _ => rfl, h2, h3, h4⟩, fun hn => ?_⟩
    rw [h5 hn]
    exact Effect.reads (F name) (tag_set_album_cover name (F name) tag) Answer.loaded
  | remove name =>
    obtain ⟨F', S', n', t', r, h1, h2, h3⟩ := delete name
    refine ⟨F', S', n', t', _, answer_run _ h1, .map _ h2, fun hn => ?_⟩
    have := (h3 hn).map fun _ => Answer.done
    rw [show ((ID3v2_delete_tag (F name) >>= fun f => .ok (f, ())) >>= fun p => (.ok (p.1, Answer.done) : Res (File × Answer)))
      = ID3v2_delete_tag (F name) >>= fun f => .ok (f, Answer.done) from bind_pair _ _ (fun _ => Answer.done)] at this
    exact this

/-- **C68**: whichever operations fail, a call changes no file but its own, and does not use a stream that it has closed. If
it returns, all streams that it opened are closed, and all others are as before. `hw`: no stream is open that was not opened
yet. -/
theorem call_keeps_to_its_file [Platform] (c : FileCall) (e : Faults) (w w' : Sys) (r : Res Answer)
    (hw : ∀ h, w.next ≤ h → w.streams h = none) (h : c.run e w = (w', r)) :
    (∀ m, m ≠ c.name → w'.files m = w.files m) ∧ (∀ a, r = .ok a → w'.streams = w.streams) ∧
      r ≠ .ub .useAfterFree ∧ r ≠ .ub .badFree := by
  obtain ⟨F', S', n', t', r', h1, ⟨h2, h3, h4, -⟩, -⟩ := call_run c e w.files w.streams w.next w.time hw
  rw [h1] at h
  cases h
  exact ⟨h2, fun a ha => h3 ⟨a, ha⟩, h4⟩

/-- If no operation fails, the result of a call and its effect on its file are those of `FileCall.effect`. -/
theorem call_effect [Platform] (c : FileCall) (e : Faults) (w w' : Sys) (r : Res Answer)
    (hw : ∀ h, w.next ≤ h → w.streams h = none) (he : ∀ t, e t = false) (h : c.run e w = (w', r)) :
    match c.effect (w.files c.name) with
    | .ok (file, a) => w'.files c.name = file ∧ r = .ok a
    | .ub k => w'.files c.name = w.files c.name ∧ r = .ub k
    | .exit => w'.files c.name = w.files c.name ∧ r = .exit
    | .diverge => w'.files c.name = w.files c.name ∧ r = .diverge := by
  obtain ⟨F', S', n', t', r', h1, -, h2⟩ := call_run c e w.files w.streams w.next w.time hw
  rw [h1] at h
  cases h
  have h2 := h2 he
  unfold Effect at h2
  revert h2
  cases c.effect (w.files c.name) <;> exact id

theorem runCalls_cons [Platform] (c : FileCall) (cs : List FileCall) (e : Faults) (w : Sys) :
    runCalls (c :: cs) e w = (c.run >>= fun a => runCalls cs >>= fun as => pure ((c.name, a) :: as)) e w := rfl

/-- **C68** for any sequence of calls: files that no call names are not changed, and in the end no stream is open that was
not open before. -/
theorem calls_keep_to_their_files [Platform] (cs : List FileCall) (e : Faults) (w w' : Sys) (r : Res (List (Name × Answer)))
    (hw : ∀ h, w.next ≤ h → w.streams h = none) (h : runCalls cs e w = (w', r)) :
    (∀ m, (∀ c ∈ cs, c.name ≠ m) → w'.files m = w.files m) ∧ (∀ a, r = .ok a → w'.streams = w.streams) ∧
      r ≠ .ub .useAfterFree ∧ r ≠ .ub .badFree := by
  induction cs generalizing w w' r with
  | nil =>
    cases h
    exact ⟨fun _ _ => rfl, fun _ _ => rfl, by simp, by simp⟩
  | cons c cs ih =>
    obtain ⟨F', S', n', t', r', h1, ⟨h2, h3, h4, h5⟩, -⟩ := call_run c e w.files w.streams w.next w.time hw
    rw [runCalls_cons, cio_bind, h1] at h
    cases r' with
    | ub k =>
      cases h
      exact ⟨fun m hm => h2 m (hm c List.mem_cons_self).symm, fun _ h => (by cases h),
        fun h => h4.1 (by cases h; rfl), fun h => h4.2 (by cases h; rfl)⟩
    | exit => cases h; exact ⟨fun m hm => h2 m (hm c List.mem_cons_self).symm, fun _ h => (by cases h), by simp, by simp⟩
    | diverge => cases h; exact ⟨fun m hm => h2 m (hm c List.mem_cons_self).symm, fun _ h => (by cases h), by simp, by simp⟩
    | ok a =>
      have hS : S' = w.streams := h3 ⟨a, rfl⟩
      subst hS
      simp only [] at h
      have hw' : ∀ k, n' ≤ k → w.streams k = none := fun k hk => hw k (by omega)
      rcases hr : runCalls cs e ⟨F', w.streams, n', t'⟩ with ⟨w₁, r₁⟩
      rw [answer_run _ hr] at h
      obtain ⟨g1, g2, g3⟩ := ih ⟨F', w.streams, n', t'⟩ w₁ r₁ hw' hr
      cases h
      refine ⟨fun m hm => ?_, fun a ha => ?_, ?_⟩
      · rw [g1 m fun c hc => hm c (List.mem_cons_of_mem _ hc)]
        exact h2 m (hm c List.mem_cons_self).symm
      · obtain ⟨b, hb, -⟩ := Res.bind_eq_ok.mp ha
        exact g2 b hb
      · exact NoMem.bind g3 fun _ => .ok _

/-- **C69**: calls on several files, in any order, act on each file as the calls with its name alone do: the sequence returns
exactly if the calls of each file would, and then each file and the answers are what they would be. -/
theorem files_independent [Platform] (cs : List FileCall) (e : Faults) (w : Sys)
    (hw : ∀ h, w.next ≤ h → w.streams h = none) (he : ∀ t, e t = false) :
    ((∃ w' answers, runCalls cs e w = (w', .ok answers)) ↔ ∀ m, ∃ r, effects (w.files m) (callsOn m cs) = .ok r) ∧
    ∀ w' answers, runCalls cs e w = (w', .ok answers) →
      ∀ m, effects (w.files m) (callsOn m cs) = .ok (w'.files m, answersOn m answers) := by
  induction cs generalizing w with
  | nil =>
    refine ⟨⟨fun _ m => ⟨_, rfl⟩, fun _ => ⟨_, _, rfl⟩⟩, ?_⟩
    intro w' answers h m
    cases h
    rfl
  | cons c cs ih =>
    obtain ⟨F', S', n', t', r', h1, ⟨h2, h3, h4, h5⟩, h6⟩ := call_run c e w.files w.streams w.next w.time hw
    have h6 := h6 he
    have hother : ∀ m, m ≠ c.name → callsOn m (c :: cs) = callsOn m cs := by
      intro m hm
      unfold callsOn
      rw [List.filter_cons_of_neg (by simpa using fun h => hm h.symm)]
    have hown : callsOn c.name (c :: cs) = c :: callsOn c.name cs := by
      unfold callsOn
      rw [List.filter_cons_of_pos (by simp)]
    unfold Effect at h6
    have fails : (∀ p, c.effect (w.files c.name) ≠ .ok p) → ¬ ∀ m, ∃ r, effects (w.files m) (callsOn m (c :: cs)) = .ok r := by
      intro hne h
      obtain ⟨r, hr⟩ := h c.name
      rw [hown] at hr
      obtain ⟨p, hp, -⟩ := Res.bind_eq_ok.mp (show (c.effect (w.files c.name) >>= fun p => _) = .ok r from hr)
      exact hne p hp
    cases hx : c.effect (w.files c.name) with
    | ub k =>
      rw [hx] at h6
      obtain ⟨-, rfl⟩ := h6
      have : runCalls (c :: cs) e w = (⟨F', S', n', t'⟩, .ub k) := by rw [runCalls_cons, cio_ub h1]
      rw [this]
      exact ⟨⟨fun ⟨_, _, h⟩ => (by cases h), fun h => absurd h (fails (by rw [hx]; simp))⟩, fun _ _ h => (by cases h)⟩
    | exit =>
      rw [hx] at h6
      obtain ⟨-, rfl⟩ := h6
      have : runCalls (c :: cs) e w = (⟨F', S', n', t'⟩, .exit) := by rw [runCalls_cons, cio_bind, h1]
      rw [this]
      exact ⟨⟨fun ⟨_, _, h⟩ => (by cases h), fun h => absurd h (fails (by rw [hx]; simp))⟩, fun _ _ h => (by cases h)⟩
    | diverge =>
      rw [hx] at h6
      obtain ⟨-, rfl⟩ := h6
      have : runCalls (c :: cs) e w = (⟨F', S', n', t'⟩, .diverge) := by rw [runCalls_cons, cio_bind, h1]
      rw [this]
      exact ⟨⟨fun ⟨_, _, h⟩ => (by cases h), fun h => absurd h (fails (by rw [hx]; simp))⟩, fun _ _ h => (by cases h)⟩
    | ok p =>
      obtain ⟨f, a⟩ := p
      rw [hx] at h6
      obtain ⟨hf, rfl⟩ := h6
      have hS : S' = w.streams := h3 ⟨a, rfl⟩
      subst hS
      have hw' : ∀ k, n' ≤ k → w.streams k = none := fun k hk => hw k (by omega)
      obtain ⟨i1, i2⟩ := ih ⟨F', w.streams, n', t'⟩ hw'
      have step : runCalls (c :: cs) e w =
          (runCalls cs >>= fun as => pure ((c.name, a) :: as)) e ⟨F', w.streams, n', t'⟩ := by
        rw [runCalls_cons, cio_ok h1]
      -- the calls of one file
      have conv : ∀ m, effects (w.files m) (callsOn m (c :: cs)) =
          effects (F' m) (callsOn m cs) >>= fun q => .ok (q.1, if c.name = m then a :: q.2 else q.2) := by
        intro m
        by_cases hm : m = c.name
        · subst hm
          rw [hown, hf]
          simp only [if_pos]
          show (c.effect (w.files c.name) >>= fun p => _) = _
          rw [hx, Res.bind_ok]
          rfl
        · rw [hother m hm, ← h2 m hm]
          have hne : ¬ c.name = m := fun h => hm h.symm
          simp only [if_neg hne]
          cases effects (F' m) (callsOn m cs) <;> rfl
      constructor
      · constructor
        · rintro ⟨w', answers, h⟩ m
          rw [step] at h
          rcases hr : runCalls cs e ⟨F', w.streams, n', t'⟩ with ⟨w₁, r₁⟩
          rw [answer_run _ hr] at h
          have h := (Prod.mk.inj h).2
          obtain ⟨as, rfl, -⟩ := Res.bind_eq_ok.mp h
          obtain ⟨q, hq⟩ := i1.mp ⟨w₁, as, hr⟩ m
          rw [conv m]
          have hq : effects (F' m) (callsOn m cs) = .ok q := hq
          rw [hq]
          exact ⟨_, rfl⟩
        · intro h
          obtain ⟨w', as, hr⟩ := i1.mpr fun m => by
            obtain ⟨r, hr⟩ := h m
            rw [conv m] at hr
            obtain ⟨q, hq, -⟩ := Res.bind_eq_ok.mp hr
            exact ⟨q, hq⟩
          exact ⟨w', _, by rw [step, answer_run _ hr]; rfl⟩
      · intro w' answers h m
        rw [step] at h
        rcases hr : runCalls cs e ⟨F', w.streams, n', t'⟩ with ⟨w₁, r₁⟩
        rw [answer_run _ hr] at h
        have hw₁ := (Prod.mk.inj h).1
        have hr₁ := (Prod.mk.inj h).2
        subst hw₁
        obtain ⟨as, rfl, h'⟩ := Res.bind_eq_ok.mp hr₁
        cases h'
        have := i2 w₁ as hr m
        rw [conv m]
        have this : effects (F' m) (callsOn m cs) = .ok (w₁.files m, answersOn m as) := this
        rw [this, Res.bind_ok]
        unfold answersOn
        by_cases hm : c.name = m
        · rw [if_pos hm, List.filter_cons_of_pos (by simpa using hm)]; rfl
        · rw [if_neg hm, List.filter_cons_of_neg (by simpa using hm)]

/-- **C64**, **C68**: whatever operations fail, the outcome of `ID3v2_write_tag` is one of those described by
`write_faults_exact`. -/
theorem write_faults_cover [Platform] (name : Name) (tag : Tag) (e : Faults) (w w' : Sys) (r : Res Tag)
    (hw : ∀ h, w.next ≤ h → w.streams h = none) (h : ID3v2_write_tag_os name tag e w = (w', r)) :
    ∃ e' : WriteFaults, ID3v2_write_tag_io e' (w.files name) tag = (w'.files name, r) := by
  obtain ⟨e', F', S', n', t', r', h1, h2, -⟩ := write_os_run name tag e w.files w.streams w.next w.time hw
  rw [h1] at h
  cases h
  exact ⟨e', h2⟩

/-- **C65**: the same for `ID3v2_delete_tag` and `delete_faults_exact`. -/
theorem delete_faults_cover [Platform] (name : Name) (e : Faults) (w w' : Sys) (r : Res Unit)
    (hw : ∀ h, w.next ≤ h → w.streams h = none) (h : ID3v2_delete_tag_os name e w = (w', r)) :
    ∃ e' : WriteFaults, ID3v2_delete_tag_io e' (w.files name) = (w'.files name, r) := by
  obtain ⟨e', F', S', n', t', r', h1, h2, -⟩ := delete_os_run name e w.files w.streams w.next w.time hw
  rw [h1] at h
  cases h
  exact ⟨e', h2⟩

/-- **C66**: the same for `ID3v2_read_tag` and `read_faults_exact`; the file system is as before, whatever fails. -/
theorem read_faults_cover [Platform] (name : Name) (e : Faults) (w w' : Sys) (r : Res (Option Tag))
    (hw : ∀ h, w.next ≤ h → w.streams h = none) (h : ID3v2_read_tag_os name e w = (w', r)) :
    w'.files = w.files ∧ w'.streams = w.streams ∧
      ∃ eh eb al, ID3v2_read_tag_io eh eb al (w.files name) = r := by
  obtain ⟨eh, eb, al, n', t', h1, -, -⟩ := read_os_run name e w.files w.streams w.next w.time hw
  rw [h1] at h
  cases h
  exact ⟨rfl, rfl, eh, eb, al, rfl⟩

/-- A file system with two files, `a` with an empty tag of ten bytes and one byte of audio, and `b` with two bytes of audio. A
stream of the program is open. -/
def twoFiles : Sys where
  files n :=
    if n = [0x61] then some (([0x49, 0x44, 0x33, 3, 0, 0, 0, 0, 0, 10] ++ List.replicate 10 0 ++ [0x41] : List UInt8).map some)
    else if n = [0x62] then some [some 0x42, some 0x43]
    else none
  streams k := if k = 0 then some (.named [0x62] 1) else none
  next := 1
  time := 0

/-- The calls: read the header of `a`, delete the tag of `a`, read `b`, read the header of `a`. -/
def fourCalls : List FileCall := [.readHeader [0x61], .delete [0x61], .read [0x62], .readHeader [0x61]]

/-- They return; `a` has lost its tag, the other file is as before, and the stream of the program is still open. -/
example : ∃ w' answers, @runCalls strict fourCalls (fun _ => false) twoFiles = (w', .ok answers) ∧
    w'.files [0x61] = some [some 0x41] ∧ w'.files [0x62] = some [some 0x42, some 0x43] ∧
    w'.streams = twoFiles.streams ∧ answersOn [0x62] answers = [.tag none] := by
  have hw : ∀ h, twoFiles.next ≤ h → twoFiles.streams h = none := by
    intro h hh
    have : ¬ h = 0 := by have : 1 ≤ h := hh; omega
    simp [twoFiles, this]
  obtain ⟨h1, h2⟩ := @files_independent strict fourCalls (fun _ => false) twoFiles hw (fun _ => rfl)
  obtain ⟨w', answers, h⟩ := h1.mpr fun m => by
    by_cases ha : m = [0x61]
    · subst ha; exact ⟨_, rfl⟩
    · by_cases hb : m = [0x62]
      · subst hb; exact ⟨_, rfl⟩
      · have : callsOn m fourCalls = [] := by
          have ha' : ¬ [(0x61 : UInt8)] = m := fun h => ha h.symm
          have hb' : ¬ [(0x62 : UInt8)] = m := fun h => hb h.symm
          simp [callsOn, fourCalls, FileCall.name, ha', hb']
        rw [this]
        exact ⟨_, rfl⟩
  refine ⟨w', answers, h, ?_, ?_, (@calls_keep_to_their_files strict fourCalls _ _ _ _ hw h).2.1 _ rfl, ?_⟩
  · have := h2 w' answers h [0x61]
    exact (congrArg Prod.fst (Res.ok.inj (this.symm.trans (show _ = Res.ok (some [some 0x41], _) from rfl))))
  · have := h2 w' answers h [0x62]
    exact (congrArg Prod.fst (Res.ok.inj (this.symm.trans (show _ = Res.ok (some [some 0x42, some 0x43], _) from rfl))))
  · have := h2 w' answers h [0x62]
    exact (congrArg Prod.snd (Res.ok.inj (this.symm.trans (show _ = Res.ok (_, [.tag none]) from rfl))))

/-- Deleting the tag when no temporary file can be made (operations 0 to 10 read the header, 11 opens the file, 12 is `tmpfile`). -/
example : ∃ w' r, @FileCall.run strict (.delete [0x61]) (fun t => t == 12) twoFiles = (w', r) ∧
    w'.files [0x62] = twoFiles.files [0x62] ∧ ∀ a, r = .ok a → w'.streams = twoFiles.streams := by
  rcases h : @FileCall.run strict (.delete [0x61]) (fun t => t == 12) twoFiles with ⟨w', r⟩
  have hw : ∀ h, twoFiles.next ≤ h → twoFiles.streams h = none := by
    intro h hh
    have : ¬ h = 0 := by have : 1 ≤ h := hh; omega
    simp [twoFiles, this]
  obtain ⟨g1, g2, -⟩ := @call_keeps_to_its_file strict _ _ _ _ _ hw h
  exact ⟨w', r, rfl, g1 _ (by decide), g2⟩

end Id3.Props

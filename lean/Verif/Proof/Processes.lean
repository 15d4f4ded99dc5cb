import Verif.Spec.Processes
import Verif.Props.Concurrent

/-!
# Processes that use one file: invariants
-/

namespace Id3.Props

open Id3 Spec

theorem header_take [Platform] (d : Bytes) : ID3v2_read_tag_header (some (d.take 10)) = ID3v2_read_tag_header (some d) := by
  unfold ID3v2_read_tag_header
  simp only [List.take_take, Nat.min_self]

theorem existing_take [Platform] (d : Bytes) : existingTagSize (some (d.take 10)) = existingTagSize (some d) := by
  unfold existingTagSize
  rw [header_take]

/-- `ID3v2_write_tag` is its preparation and copying. -/
theorem write_prepare [Platform] (d : Bytes) (tag : Tag) : ID3v2_write_tag (some d) tag =
    (prepareWrite (d.take 10) tag >>= fun (n, temp, tag') => .ok (some (temp ++ d.drop n.toNat), tag')) := by
  unfold ID3v2_write_tag prepareWrite
  rw [existing_take]
  cases existingTagSize (some d) <;> try rfl
  simp only [Res.bind_ok]
  cases ck (2048 - tag.padding_size) <;> try rfl
  rename_i a
  simp only [Res.bind_ok]
  cases ck (tag.padding_size + clamp_int a 0 2048) <;> try rfl
  rename_i b
  simp only [Res.bind_ok]
  cases Tag_to_char_stream { tag with padding_size := b } <;> try rfl
  rename_i cs
  simp only [Res.bind_ok]
  cases memcpySrc cs.stream cs.size <;> rfl

/-- The process is in a call that began when the file was `d`, and nobody else changes the file. -/
def InCall [Platform] (d dest : Bytes) (p : Proc) : Prop :=
  match p.phase with
  | .idle => True
  | .reading r => p.todo.head? = some .read ∧ Sees d r
  | .header call got => p.todo.head? = some call ∧ call ≠ .read ∧ dest = d ∧ got <+: d ∧ got.length ≤ 10
  | .saving temp pos ret => ∃ call, p.todo.head? = some call ∧ call ≠ .read ∧ dest = d ∧
      CallDoes call d (temp ++ d.drop pos) (.ok ret) ∧ Rewrites call d
  | .saved temp ret => ∃ call, p.todo.head? = some call ∧ call ≠ .read ∧ dest = d ∧ CallDoes call d temp (.ok ret) ∧
      Rewrites call d
  | .copying pos buffer rest ret => ∃ call, p.todo.head? = some call ∧ call ≠ .read ∧ pos = dest.length ∧
      CallDoes call d (dest ++ (buffer ++ rest)) (.ok ret) ∧ Rewrites call d
  | .done r => ∃ call, p.todo.head? = some call ∧ call ≠ .read ∧ CallDoes call d dest r ∧
      (dest = d ∨ Rewrites call d ∧ ∃ ret, r = .ok ret)

/-- A step of a call that may change the file. -/
theorem in_call_step [Platform] {d dest dest' : Bytes} {todo : List FileCall} {p p' : PPhase}
    (h : CallStep dest p dest' p') (hi : InCall d dest ⟨p, todo⟩) (hd : ∀ r, p = .reading r → dest = d) :
    InCall d dest' ⟨p', todo⟩ := by
  cases h with
  | reading r r' h =>
    obtain ⟨h1, h2⟩ := hi
    cases hd r rfl
    exact ⟨h1, sees_step (enough_self _) h2 h⟩
  | getHeader call got c hl hc =>
    obtain ⟨h1, h2, rfl, h4, h5⟩ := hi
    exact ⟨h1, h2, rfl, prefix_snoc h4 (List.prefix_refl _) hc, by simp; omega⟩
  | endHeader call got hl =>
    obtain ⟨h1, h2, rfl, h4, h5⟩ := hi
    have hg := take_of_prefix h4 h5 hl
    subst hg
    cases call with
    | read => exact absurd rfl h2
    | write tag =>
      unfold afterHeaderOf
      dsimp only
      have e := write_prepare dest tag
      generalize prepareWrite (dest.take 10) tag = q at e
      cases q with
      | ok v =>
        obtain ⟨n, temp, tag'⟩ := v
        refine ⟨_, h1, h2, rfl, ?_, trivial⟩
        unfold CallDoes
        dsimp only
        simp only [Res.bind_ok] at e
        rw [e]
        exact ⟨rfl, rfl⟩
      | _ =>
        refine ⟨_, h1, h2, ?_, .inl rfl⟩
        unfold CallDoes
        dsimp only
        replace e : ID3v2_write_tag (some dest) tag = _ := e
        rw [e]
        exact ⟨rfl, rfl⟩
    | delete =>
      unfold afterHeaderOf
      dsimp only
      rw [header_take]
      cases q : ID3v2_read_tag_header (some dest) with
      | ok v =>
        cases v with
        | none =>
          refine ⟨_, h1, h2, ?_, .inl rfl⟩
          unfold CallDoes ID3v2_delete_tag
          dsimp only
          rw [q]
          exact ⟨rfl, rfl⟩
        | some hd =>
          refine ⟨_, h1, h2, rfl, ?_, ⟨_, q⟩⟩
          unfold CallDoes ID3v2_delete_tag
          dsimp only
          rw [q]
          exact ⟨rfl, rfl⟩
      | _ =>
        refine ⟨_, h1, h2, ?_, .inl rfl⟩
        unfold CallDoes ID3v2_delete_tag
        dsimp only
        rw [q]
        exact ⟨rfl, rfl⟩
  | save temp pos ret c hc =>
    obtain ⟨call, h1, h2, rfl, h4, h5⟩ := hi
    refine ⟨call, h1, h2, rfl, ?_, h5⟩
    obtain ⟨hl, rfl⟩ := List.getElem?_eq_some_iff.mp hc
    rw [List.append_assoc, List.singleton_append, ← List.drop_eq_getElem_cons hl]
    exact h4
  | eof temp pos ret hl =>
    obtain ⟨call, h1, h2, rfl, h4, h5⟩ := hi
    rw [List.drop_eq_nil_of_le hl, List.append_nil] at h4
    exact ⟨call, h1, h2, rfl, h4, h5⟩
  | truncate temp ret =>
    obtain ⟨call, h1, h2, rfl, h4, h5⟩ := hi
    exact ⟨call, h1, h2, rfl, h4, h5⟩
  | copy buffer rest pos ret c =>
    obtain ⟨call, h1, h2, h3, h4, h5⟩ := hi
    refine ⟨call, h1, h2, h3, ?_, h5⟩
    rw [List.append_assoc buffer]
    exact h4
  | flush buf₁ buf₂ rest pos ret =>
    obtain ⟨call, h1, h2, rfl, h4, h5⟩ := hi
    have e : writeAt dest dest.length buf₁ = dest ++ buf₁ := by
      unfold writeAt
      split
      · next h => rw [h, List.append_nil]
      · simp
    refine ⟨call, h1, h2, by rw [e, List.length_append], ?_, h5⟩
    rw [e, List.append_assoc dest, ← List.append_assoc buf₁]
    exact h4
  | close pos ret =>
    obtain ⟨call, h1, h2, h3, h4, h5⟩ := hi
    refine ⟨call, h1, h2, ?_, .inr ⟨h5, _, rfl⟩⟩
    simpa using h4

/-- Under the lock. -/
def LockInv [Platform] (c : Bytes) (s : PState) : Prop :=
  ∃ d, OneByOne c s.log d ∧ (∀ i, InCall d s.dest (s.procs i)) ∧ ((∀ i, ¬ Changing (s.procs i)) → s.dest = d)

theorem setProc_self (procs : Nat → Proc) (i : Nat) (p : Proc) : setProc procs i p i = p := by
  unfold setProc; rw [if_pos rfl]

theorem setProc_ne (procs : Nat → Proc) {i j : Nat} (p : Proc) (h : j ≠ i) : setProc procs i p j = procs j := by
  unfold setProc; rw [if_neg h]

theorem in_call_idle [Platform] {d dest : Bytes} {p : Proc} (h : p.phase = .idle) : InCall d dest p := by
  unfold InCall; rw [h]; trivial

/-- What a process does that is not in a changing call does not depend on the file now. -/
theorem in_call_read [Platform] {d dest dest' : Bytes} {p : Proc} (hc : ¬ Changing p) (h : InCall d dest p) :
    InCall d dest' p := by
  obtain ⟨ph, todo⟩ := p
  unfold Changing at hc
  cases ph with
  | idle => trivial
  | reading r => exact h
  | header call got =>
    exact absurd ⟨by simp, by rw [h.1]; simpa using h.2.1⟩ hc
  | saving temp pos ret =>
    obtain ⟨call, h1, h2, -⟩ := h
    exact absurd ⟨by simp, by rw [h1]; simpa using h2⟩ hc
  | saved temp ret =>
    obtain ⟨call, h1, h2, -⟩ := h
    exact absurd ⟨by simp, by rw [h1]; simpa using h2⟩ hc
  | copying pos buffer rest ret =>
    obtain ⟨call, h1, h2, -⟩ := h
    exact absurd ⟨by simp, by rw [h1]; simpa using h2⟩ hc
  | done r =>
    obtain ⟨call, h1, h2, -⟩ := h
    exact absurd ⟨by simp, by rw [h1]; simpa using h2⟩ hc

theorem call_step_not_idle [Platform] {dest dest' : Bytes} {p p' : PPhase} (h : CallStep dest p dest' p') :
    p ≠ .idle ∧ p' ≠ .idle := by
  cases h <;> refine ⟨by simp, ?_⟩ <;> try simp
  next call got hl =>
    cases call with
    | read => simp [afterHeaderOf]
    | write tag => unfold afterHeaderOf; dsimp only; split <;> simp
    | delete => unfold afterHeaderOf; dsimp only; split <;> simp

theorem lock_step [Platform] {c : Bytes} {s t : PState} (hs : LockInv c s) (hx : Exclusive s) (hx' : Exclusive t)
    (h : PStep s t) : LockInv c t := by
  obtain ⟨d, h1, h2, h3⟩ := hs
  cases h with
  | start dest procs log i call cs hi =>
    refine ⟨d, h1, ?_, ?_⟩
    · intro j
      by_cases hj : j = i
      · subst hj
        dsimp only
        rw [setProc_self]
        cases call with
        | read => exact ⟨rfl, List.nil_prefix, Nat.zero_le _⟩
        | write tag =>
          refine ⟨rfl, by simp, ?_, List.nil_prefix, Nat.zero_le _⟩
          refine h3 fun k hk => ?_
          have hkj : k ≠ j := by rintro rfl; exact hk.1 (by dsimp only; rw [hi])
          have := hx' k j hkj (by dsimp only; rw [setProc_ne _ _ hkj]; exact hk)
          dsimp only at this
          rw [setProc_self] at this
          cases this
        | delete =>
          refine ⟨rfl, by simp, ?_, List.nil_prefix, Nat.zero_le _⟩
          refine h3 fun k hk => ?_
          have hkj : k ≠ j := by rintro rfl; exact hk.1 (by dsimp only; rw [hi])
          have := hx' k j hkj (by dsimp only; rw [setProc_ne _ _ hkj]; exact hk)
          dsimp only at this
          rw [setProc_self] at this
          cases this
      · dsimp only
        rw [setProc_ne _ _ hj]
        exact h2 j
    · intro hn
      refine h3 fun k hk => ?_
      have hkj : k ≠ i := by rintro rfl; exact hk.1 (by dsimp only; rw [hi])
      exact hn k (by dsimp only; rw [setProc_ne _ _ hkj]; exact hk)
  | work dest dest' procs log i p' hw =>
    obtain ⟨hp, hp'⟩ := call_step_not_idle hw
    by_cases hc : Changing (procs i)
    · have hself := in_call_step hw (h2 i) (by
        intro r hr
        have := h2 i
        unfold InCall at this
        dsimp only at this
        rw [hr] at this
        exact absurd this.1 hc.2)
      refine ⟨d, h1, ?_, ?_⟩
      · intro j
        dsimp only
        by_cases hj : j = i
        · subst hj
          rw [setProc_self]
          exact hself
        · rw [setProc_ne _ _ hj]
          exact in_call_idle (hx i j (Ne.symm hj) hc)
      · intro hn
        refine absurd ⟨?_, ?_⟩ (hn i) <;> dsimp only <;> rw [setProc_self]
        · exact hp'
        · exact hc.2
    · -- a reader: nobody changes the file
      have hno : ∀ k, ¬ Changing (procs k) := by
        intro k hk
        by_cases hki : k = i
        · subst hki; exact hc hk
        · exact hp (hx k i hki hk)
      have hd : dest = d := h3 hno
      have hr : ∃ r, (procs i).phase = .reading r := by
        have := h2 i
        unfold InCall at this
        unfold Changing at hc
        dsimp only at this
        cases q : (procs i).phase with
        | idle => exact absurd q hp
        | reading r => exact ⟨r, rfl⟩
        | header call got =>
          rw [q] at this
          exact absurd ⟨hp, by rw [this.1]; simpa using this.2.1⟩ hc
        | saving temp pos ret =>
          rw [q] at this
          obtain ⟨call, e1, e2, -⟩ := this
          exact absurd ⟨hp, by rw [e1]; simpa using e2⟩ hc
        | saved temp ret =>
          rw [q] at this
          obtain ⟨call, e1, e2, -⟩ := this
          exact absurd ⟨hp, by rw [e1]; simpa using e2⟩ hc
        | copying pos buffer rest ret =>
          rw [q] at this
          obtain ⟨call, e1, e2, -⟩ := this
          exact absurd ⟨hp, by rw [e1]; simpa using e2⟩ hc
        | done r =>
          rw [q] at this
          obtain ⟨call, e1, e2, -⟩ := this
          exact absurd ⟨hp, by rw [e1]; simpa using e2⟩ hc
      obtain ⟨r, hr⟩ := hr
      have hself := in_call_step hw (h2 i) (fun _ _ => hd)
      have hdd : dest' = dest := by
        rw [hr] at hw
        cases hw; rfl
      subst hdd
      refine ⟨d, h1, ?_, fun _ => hd⟩
      intro j
      dsimp only
      by_cases hj : j = i
      · subst hj
        rw [setProc_self]
        exact hself
      · rw [setProc_ne _ _ hj]
        exact h2 j
  | finish dest procs log i call cs r hr ht =>
    have hi := h2 i
    unfold InCall at hi
    dsimp only at hi
    have hp : (procs i).phase ≠ .idle := by intro e; rw [e] at hr; cases hr
    by_cases hc : Changing (procs i)
    · have hdone : CallDoes call d dest r := by
        cases q : (procs i).phase with
        | done r' =>
          rw [q] at hi hr
          cases hr
          obtain ⟨call', e1, -, e2, -⟩ := hi
          rw [ht] at e1
          cases e1
          exact e2
        | reading r' =>
          rw [q] at hi
          exact absurd hi.1 hc.2
        | _ => rw [q] at hr; cases hr
      refine ⟨dest, .snoc _ _ _ _ h1 hdone, ?_, fun _ => rfl⟩
      intro j
      dsimp only
      by_cases hj : j = i
      · subst hj
        rw [setProc_self]
        trivial
      · rw [setProc_ne _ _ hj]
        exact in_call_idle (hx i j (Ne.symm hj) hc)
    · have hno : ∀ k, ¬ Changing (procs k) := by
        intro k hk
        by_cases hki : k = i
        · subst hki; exact hc hk
        · exact hp (hx k i hki hk)
      have hd : dest = d := h3 hno
      have hcall : call = .read := by
        refine Classical.byContradiction fun hne => hc ⟨hp, ?_⟩
        rw [ht]
        simpa using hne
      subst hcall
      have hdone : CallDoes .read d d r := by
        cases q : (procs i).phase with
        | done r' =>
          rw [q] at hi
          obtain ⟨call', e1, e2, -⟩ := hi
          rw [ht] at e1
          cases e1
          exact absurd rfl e2
        | reading r' =>
          rw [q] at hi hr
          cases r' with
          | done r'' =>
            cases hr
            exact ⟨rfl, hi.2⟩
          | _ => cases hr
        | _ => rw [q] at hr; cases hr
      refine ⟨d, .snoc _ _ _ _ h1 hdone, ?_, fun _ => hd⟩
      intro j
      dsimp only
      by_cases hj : j = i
      · subst hj
        rw [setProc_self]
        trivial
      · rw [setProc_ne _ _ hj]
        exact h2 j

end Id3.Props

import Verif.Spec.Kill
import Verif.Props.Processes

/-!
# Processes that use one file under a lock and may be killed at any moment (C84)
-/

namespace Id3.Props

open Id3 Spec

/-! ## Every schedule and every moment -/

theorem happened_append [Platform] {c d d' : Bytes} {events : List Event} {log : List CallEntry} (h : Happened c events d)
    (h' : OneByOne d log d') : Happened c (events ++ log.map .over) d' := by
  induction h' with
  | nil => simpa using h
  | snoc log e f f' _ hd ih =>
    rw [List.map_append, ← List.append_assoc]
    exact .over _ _ _ _ ih hd

/-- Under the lock, with kills. -/
def KillInv [Platform] (c : Bytes) (s : KState) : Prop :=
  ∃ d, Happened c s.events d ∧ (∀ i, InCall d s.dest (s.procs i)) ∧ ((∀ i, ¬ Changing (s.procs i)) → s.dest = d)

/-- What is in the file when a process is killed in a call that began when the file was `d`. -/
theorem killed_in_call [Platform] {d dest : Bytes} {p : Proc} {call : FileCall} {cs : List FileCall} (hp : p.phase ≠ .idle)
    (ht : p.todo = call :: cs) (hc : call ≠ .read) (h : InCall d dest p) : KilledIn call d dest := by
  obtain ⟨ph, todo⟩ := p
  dsimp only at hp ht
  subst ht
  cases ph with
  | idle => exact absurd rfl hp
  | reading r => exact absurd (Option.some.inj h.1) hc
  | header c got => exact .inl h.2.2.1
  | saving temp pos ret =>
    obtain ⟨c, -, -, h3, -⟩ := h
    exact .inl h3
  | saved temp ret =>
    obtain ⟨c, -, -, h3, -⟩ := h
    exact .inl h3
  | copying pos buffer rest ret =>
    obtain ⟨c, h1, -, -, h4, h5⟩ := h
    cases h1
    exact .inr ⟨h5, _, _, h4, List.prefix_append _ _⟩
  | done r =>
    obtain ⟨c, h1, -, h3, h4⟩ := h
    cases h1
    rcases h4 with h4 | ⟨h4, ret, rfl⟩
    · exact .inl h4
    · exact .inr ⟨h4, _, _, h3, List.prefix_refl _⟩

theorem kill_step [Platform] {c : Bytes} {s t : KState} (hs : KillInv c s) (hx : KExclusive s) (hx' : KExclusive t)
    (h : KStep s t) : KillInv c t := by
  obtain ⟨d, h1, h2, h3⟩ := hs
  cases h with
  | step dest dest' procs procs' log events h =>
    obtain ⟨d', e1, e2, e3⟩ := lock_step (c := d) (s := ⟨dest, procs, []⟩) (t := ⟨dest', procs', log⟩) ⟨d, .nil, h2, h3⟩ hx hx' h
    exact ⟨d', happened_append h1 e1, e2, e3⟩
  | kill dest procs events i call cs hp ht =>
    by_cases hc : call = .read
    · subst hc
      refine ⟨d, .killed _ _ _ _ _ h1 (.inl rfl), ?_, ?_⟩
      · intro j
        dsimp only
        by_cases hj : j = i
        · subst hj; rw [setProc_self]; trivial
        · rw [setProc_ne _ _ hj]; exact h2 j
      · intro hn
        refine h3 fun k hk => ?_
        by_cases hki : k = i
        · subst hki
          exact hk.2 (by dsimp only; rw [ht]; rfl)
        · exact hn k (by dsimp only; rw [setProc_ne _ _ hki]; exact hk)
    · have hch : Changing (procs i) := ⟨hp, by rw [ht]; simpa using hc⟩
      refine ⟨dest, .killed _ _ _ _ _ h1 (killed_in_call hp ht hc (h2 i)), ?_, fun _ => rfl⟩
      intro j
      dsimp only
      by_cases hj : j = i
      · subst hj; rw [setProc_self]; trivial
      · rw [setProc_ne _ _ hj]; exact in_call_idle (hx i j (Ne.symm hj) hch)
  | quit dest procs events i hp =>
    refine ⟨d, h1, ?_, ?_⟩
    · intro j
      dsimp only
      by_cases hj : j = i
      · subst hj; rw [setProc_self]; trivial
      · rw [setProc_ne _ _ hj]; exact h2 j
    · intro hn
      refine h3 fun k hk => ?_
      by_cases hki : k = i
      · subst hki; exact hk.1 hp
      · exact hn k (by dsimp only; rw [setProc_ne _ _ hki]; exact hk)

theorem kguarded_exclusive [Platform] {s t : KState} (h : KGuarded s t) : KExclusive t := by
  cases h with
  | refl h => exact h
  | tail _ _ _ _ h => exact h

/-- **C84**: with a readers-writer lock around every call, for any number of processes, any calls, every schedule and all
moments at which processes are killed: the calls that are over had the results that they have when the calls are made one
after the other, where a killed call leaves the file alone or leaves the beginning of what it would have written; and as long
as no process writes or deletes, the file is what they leave then. -/
theorem killed_calls_serial [Platform] (contents : Bytes) (calls : Nat → List FileCall) (s : KState)
    (h : KGuarded (.init contents calls) s) :
    ∃ file, Happened contents s.events file ∧ ((∀ i, ¬ Changing (s.procs i)) → s.dest = file) := by
  have hi : KillInv contents s := by
    induction h with
    | refl hx => exact ⟨contents, .nil, fun i => trivial, fun _ => rfl⟩
    | tail t u ht hu hx ih => exact kill_step ih (kguarded_exclusive ht) hx hu
  obtain ⟨d, h1, -, h3⟩ := hi
  exact ⟨d, h1, h3⟩

theorem madeBy_append (i : Nat) (a b : List Event) : madeBy i (a ++ b) = madeBy i a ++ madeBy i b := by
  unfold madeBy
  rw [List.filter_append, List.map_append]

theorem madeBy_over (i : Nat) (log : List CallEntry) : madeBy i (log.map .over) = callsOf i log := by
  induction log with
  | nil => rfl
  | cons e log ih =>
    unfold madeBy callsOf at ih ⊢
    rw [List.map_cons, List.filter_cons, List.filter_cons]
    by_cases h : e.proc = i
    · have h' : procOf (.over e) = i := h
      simp only [h, h', beq_self_eq_true, if_true, List.map_cons]
      rw [ih]
      rfl
    · have h' : ¬ procOf (.over e) = i := h
      rw [if_neg (by simpa using h'), if_neg (by simpa using h), ih]

theorem pstep_todo [Platform] {dest dest' : Bytes} {procs procs' : Nat → Proc} {log : List CallEntry}
    (h : PStep ⟨dest, procs, []⟩ ⟨dest', procs', log⟩) (i : Nat) :
    (procs i).todo = callsOf i log ++ (procs' i).todo ∨ (callsOf i log <+: (procs i).todo ∧ (procs' i).todo = []) := by
  cases h with
  | start _ _ _ j c cs hj =>
    by_cases hij : i = j
    · subst hij; rw [setProc_self, hj]; exact .inl rfl
    · rw [setProc_ne _ _ hij]; exact .inl rfl
  | work _ _ _ _ j p' hw =>
    by_cases hij : i = j
    · subst hij; rw [setProc_self]; exact .inl rfl
    · rw [setProc_ne _ _ hij]; exact .inl rfl
  | finish _ _ _ j c cs r hr ht =>
    by_cases hij : i = j
    · subst hij
      rw [setProc_self, ht]
      have e : callsOf i ([] ++ [(⟨i, c, r⟩ : CallEntry)]) = [c] := by simp [callsOf]
      rw [e]
      cases r with
      | ok t => exact .inl rfl
      | _ => exact .inr ⟨⟨cs, rfl⟩, rfl⟩
    · rw [setProc_ne _ _ hij]
      have e : callsOf i ([] ++ [(⟨j, c, r⟩ : CallEntry)]) = [] := by simp [callsOf, Ne.symm hij]
      rw [e]
      exact .inl rfl

/-- **C84**: a process makes its calls in its order, up to the call in which it is killed. -/
theorem killed_in_order [Platform] (contents : Bytes) (calls : Nat → List FileCall) (s : KState)
    (h : KGuarded (.init contents calls) s) (i : Nat) :
    madeBy i s.events ++ (s.procs i).todo = calls i ∨ (madeBy i s.events <+: calls i ∧ (s.procs i).todo = []) := by
  induction h with
  | refl => exact .inl rfl
  | tail t u _ hstep _ ih =>
    cases hstep with
    | step dest dest' procs procs' log events h =>
      dsimp only at ih ⊢
      rw [madeBy_append, madeBy_over]
      rcases pstep_todo h i with e | ⟨⟨r, e⟩, e'⟩
      · rcases ih with ih | ⟨ih, ih'⟩
        · rw [e] at ih
          exact .inl (by rw [← ih, List.append_assoc])
        · rw [e] at ih'
          obtain ⟨e1, e2⟩ := List.append_eq_nil_iff.mp ih'
          exact .inr ⟨by rw [e1, List.append_nil]; exact ih, e2⟩
      · rcases ih with ih | ⟨ih, ih'⟩
        · refine .inr ⟨⟨r, ?_⟩, e'⟩
          rw [← ih, ← e, List.append_assoc]
        · rw [ih'] at e
          obtain ⟨e1, -⟩ := List.append_eq_nil_iff.mp e
          exact .inr ⟨by rw [e1, List.append_nil]; exact ih, e'⟩
    | kill dest procs events j c cs hp ht =>
      dsimp only at ih ⊢
      rw [madeBy_append]
      by_cases hij : i = j
      · subst hij
        rw [setProc_self]
        have e : madeBy i [Event.killed i c] = [c] := by simp [madeBy, procOf, callOf]
        rw [e]
        rcases ih with ih | ⟨ih, ih'⟩
        · exact .inr ⟨⟨cs, by rw [← ih, ht]; simp⟩, rfl⟩
        · rw [ht] at ih'; cases ih'
      · rw [setProc_ne _ _ hij]
        have e : madeBy i [Event.killed j c] = [] := by simp [madeBy, procOf, Ne.symm hij]
        rw [e, List.append_nil]
        exact ih
    | quit dest procs events j hp =>
      dsimp only at ih ⊢
      by_cases hij : i = j
      · subst hij
        rw [setProc_self]
        rcases ih with ih | ⟨ih, ih'⟩
        · exact .inr ⟨⟨_, ih⟩, rfl⟩
        · exact .inr ⟨ih, rfl⟩
      · rw [setProc_ne _ _ hij]; exact ih

/-! ## Every such outcome is possible -/

theorem kguarded_work [Platform] {s0 : KState} {d d' : Bytes} {procs : Nat → Proc} {events : List Event} {i : Nat}
    {p p' : PPhase} {todo : List FileCall} (hi : ∀ j, j ≠ i → (procs j).phase = .idle)
    (h : KGuarded s0 ⟨d, setProc procs i ⟨p, todo⟩, events⟩) (hw : CallSteps d p d' p') :
    KGuarded s0 ⟨d', setProc procs i ⟨p', todo⟩, events⟩ := by
  induction hw with
  | refl => exact h
  | tail b c q q' _ hst ih =>
    have := PStep.work b c (setProc procs i ⟨q, todo⟩) [] i q' (by rw [setProc_self]; exact hst)
    rw [setProc_setProc, setProc_self] at this
    have h2 := KStep.step _ _ _ _ _ events this
    rw [List.map_nil, List.append_nil] at h2
    exact .tail _ _ _ ih h2
      (exclusive_one (s := ⟨c, setProc procs i ⟨q', todo⟩, []⟩) (i := i) fun j hj => by
        dsimp only; rw [setProc_ne _ _ hj]; exact hi j hj)

theorem idle_exclusive {dest : Bytes} {procs : Nat → Proc} {events : List Event} {i : Nat}
    (h : ∀ j, j ≠ i → (procs j).phase = .idle) : KExclusive ⟨dest, procs, events⟩ :=
  exclusive_one (s := ⟨dest, procs, []⟩) (i := i) h

theorem idle_start [Platform] {s0 : KState} {dest : Bytes} {procs : Nat → Proc} {events : List Event}
    (h : KGuarded s0 ⟨dest, procs, events⟩) (hidle : ∀ j, (procs j).phase = .idle) (i : Nat) (c : FileCall)
    (cs : List FileCall) (ht : (procs i).todo = c :: cs) :
    KGuarded s0 ⟨dest, setProc procs i ⟨c.begin, c :: cs⟩, events⟩ := by
  have hp : procs i = ⟨.idle, c :: cs⟩ := by
    have := hidle i
    generalize procs i = q at this ht
    obtain ⟨a, b⟩ := q
    cases this; cases ht; rfl
  have h2 := KStep.step _ _ _ _ _ events (.start dest procs [] i c cs hp)
  rw [List.map_nil, List.append_nil] at h2
  exact .tail _ _ _ h h2 (idle_exclusive (i := i) fun j hj => by rw [setProc_ne _ _ hj]; exact hidle j)

/-- From the copied audio to any prefix of the new file. -/
theorem callsteps_part [Platform] (d out a b : Bytes) (ret : Option Tag) (h : out = a ++ b) :
    CallSteps d (.saved out ret) a (.copying a.length b [] ret) := by
  have h1 : CallSteps d (.saved out ret) [] (.copying 0 [] out ret) := .tail _ _ _ _ _ _ (.refl _ _) (.truncate _ _ _)
  have h2 := callsteps_trans h1 (callsteps_copying [] 0 ret out [])
  rw [List.nil_append, h] at h2
  have h3 := CallSteps.tail _ _ _ _ _ _ h2 (.flush [] a b [] 0 ret)
  have e : writeAt [] 0 a = a := by
    unfold writeAt
    split
    · next h => rw [h]
    · simp
  rw [e, Nat.zero_add] at h3
  rw [h]
  exact h3

/-- A call that rewrites the file comes to the point at which the new file is in the temporary file. -/
theorem call_saved [Platform] {call : FileCall} {d new : Bytes} {ret : Option Tag} (hr : Rewrites call d)
    (h : CallDoes call d new (.ok ret)) : CallSteps d call.begin d (.saved new ret) := by
  cases call with
  | read => exact hr.elim
  | write tag =>
    obtain ⟨h1, h2⟩ := callsteps_header d (.write tag) 10 [] List.nil_prefix rfl
    have h3 := CallSteps.tail _ _ _ _ _ _ h1 (.endHeader _ _ _ h2)
    unfold afterHeaderOf at h3
    dsimp only at h3
    have e := write_prepare d tag
    unfold CallDoes at h
    dsimp only at h
    generalize prepareWrite (d.take 10) tag = q at e h3
    cases q with
    | ok v =>
      obtain ⟨n, temp, tag'⟩ := v
      simp only [Res.bind_ok] at e
      rw [e] at h
      obtain ⟨e1, e2⟩ := h
      cases e1; cases e2
      exact callsteps_trans h3 (callsteps_saving d _ _ _ _ rfl)
    | _ =>
      replace e : ID3v2_write_tag (some d) tag = _ := e
      rw [e] at h
      cases h.2
  | delete =>
    obtain ⟨hd, q⟩ := hr
    obtain ⟨h1, h2⟩ := callsteps_header d .delete 10 [] List.nil_prefix rfl
    have h3 := CallSteps.tail _ _ _ _ _ _ h1 (.endHeader _ _ _ h2)
    unfold afterHeaderOf at h3
    dsimp only at h3
    rw [header_take, q] at h3
    unfold CallDoes ID3v2_delete_tag at h
    dsimp only at h
    rw [q] at h
    obtain ⟨e1, e2⟩ := h
    cases e1; cases e2
    exact callsteps_trans h3 (callsteps_saving d _ _ _ _ rfl)

theorem begin_not_idle (c : FileCall) : c.begin ≠ .idle := by cases c <;> simp [FileCall.begin]

/-- **C84**: and each of these files can be left: while the others are not in a call, process `i` can be killed in its next
call with any of the outcomes that `KilledIn` allows. -/
theorem next_call_killed [Platform] (s0 s : KState) (h : KGuarded s0 s) (hidle : ∀ j, (s.procs j).phase = .idle) (i : Nat)
    (c : FileCall) (cs : List FileCall) (ht : (s.procs i).todo = c :: cs) (file' : Bytes) (hk : KilledIn c s.dest file') :
    KGuarded s0 ⟨file', setProc s.procs i ⟨.idle, []⟩, s.events ++ [.killed i c]⟩ := by
  obtain ⟨d, procs, events⟩ := s
  dsimp only at hidle ht hk ⊢
  have g1 := idle_start h hidle i c cs ht
  have hsteps : ∃ p, CallSteps d c.begin file' p ∧ p ≠ .idle := by
    rcases hk with rfl | ⟨hr, new, ret, hd, t, rfl⟩
    · exact ⟨_, .refl _ _, begin_not_idle c⟩
    · exact ⟨_, callsteps_trans (call_saved hr hd) (callsteps_part d _ file' t ret rfl), by simp⟩
  obtain ⟨p, hs, hp⟩ := hsteps
  have g2 := kguarded_work (fun j _ => hidle j) g1 hs
  have g3 := KStep.kill file' (setProc procs i ⟨p, c :: cs⟩) events i c cs (by rw [setProc_self]; exact hp) (by rw [setProc_self])
  rw [setProc_setProc] at g3
  exact .tail _ _ _ g2 g3 (idle_exclusive (i := i) fun j hj => by rw [setProc_ne _ _ hj]; exact hidle j)

/-- **C84**: the next process gets the lock and ends its call, with the effect and result of the function for the file that
is there now. -/
theorem next_call_after_kill [Platform] (s0 s : KState) (h : KGuarded s0 s) (hidle : ∀ j, (s.procs j).phase = .idle) (i : Nat)
    (c : FileCall) (cs : List FileCall) (ht : (s.procs i).todo = c :: cs) :
    ∃ (d' : Bytes) (r : Res (Option Tag)), CallDoes c s.dest d' r ∧
      KGuarded s0 ⟨d', setProc s.procs i ⟨.idle, afterResult r cs⟩, s.events ++ [.over ⟨i, c, r⟩]⟩ := by
  obtain ⟨d, procs, events⟩ := s
  dsimp only at hidle ht ⊢
  obtain ⟨d', r, p, h1, h2, h3⟩ := call_ends c d
  have g2 := kguarded_work (fun j _ => hidle j) (idle_start h hidle i c cs ht) h2
  have g3 := PStep.finish d' (setProc procs i ⟨p, c :: cs⟩) [] i c cs r (by rw [setProc_self]; exact h3) (by rw [setProc_self])
  rw [setProc_setProc] at g3
  exact ⟨d', r, h1, .tail _ _ _ g2 (.step _ _ _ _ _ events g3) (idle_exclusive (i := i) fun j hj => by
    rw [setProc_ne _ _ hj]; exact hidle j)⟩

/-! ## What this means -/

theorem finished_append (a b : List Event) : finished (a ++ b) = finished a ++ finished b := by
  induction a with
  | nil => rfl
  | cons e a ih => cases e <;> simp [finished, ih]

/-- **C84**: killing processes that read is harmless: the calls that are over, without the killed ones, are as if made one
after the other. -/
theorem killed_readers_harmless [Platform] (contents : Bytes) (calls : Nat → List FileCall) (s : KState)
    (h : KGuarded (.init contents calls) s) (hr : ∀ i c, Event.killed i c ∈ s.events → c = .read) :
    ∃ file, OneByOne contents (finished s.events) file ∧ ((∀ i, ¬ Changing (s.procs i)) → s.dest = file) := by
  obtain ⟨file, h1, h2⟩ := killed_calls_serial contents calls s h
  refine ⟨file, ?_, h2⟩
  clear h2 h
  revert hr
  generalize s.events = events at h1
  induction h1 with
  | nil => exact fun _ => .nil
  | over events e f f' _ hd ih =>
    intro hr
    rw [finished_append]
    exact .snoc _ _ _ _ (ih fun i c hc => hr i c (List.mem_append_left _ hc)) hd
  | killed events i c f f' _ hk ih =>
    intro hr
    rw [finished_append, show finished [Event.killed i c] = [] from rfl, List.append_nil]
    have hc := hr i c (List.mem_append_right _ (List.mem_singleton.mpr rfl))
    subst hc
    rcases hk with rfl | ⟨hk, -⟩
    · exact ih fun i c hc => hr i c (List.mem_append_left _ hc)
    · exact hk.elim

theorem tagged_self [Platform] (contents : List UInt8) : Tagged (some (ofB contents)) (audio contents) :=
  ⟨_, _, rfl, existing_size contents, by rw [ofB_drop]; rfl⟩

theorem delete_tagged [Platform] {c : Bytes} {a : List UInt8} (h : Tagged (some c) a) (h0 : tagLength a = 0) :
    ∃ c', ID3v2_delete_tag (some c) = .ok (some c') ∧ Tagged (some c') a := by
  obtain ⟨c', n, e, hn, ha⟩ := h
  cases e
  refine ⟨_, delete_eq _ _ hn, ?_⟩
  rw [ha]
  have := tagged_self a
  unfold audio at this
  rwa [h0, List.drop_zero] at this

theorem does_tagged [Platform] {call : FileCall} {f f' : Bytes} {r : Res (Option Tag)} {a : List UInt8}
    (h : Tagged (some f) a) (hd : CallDoes call f f' r) (hw : ∀ tag, call = .write tag → Writable tag)
    (h0 : call = .delete → tagLength a = 0) : Tagged (some f') a := by
  unfold CallDoes at hd
  cases call with
  | read => rw [hd.1]; exact h
  | write tag =>
    dsimp only at hd
    cases q : ID3v2_write_tag (some f) tag with
    | ok v =>
      obtain ⟨g, tag'⟩ := v
      rw [q] at hd
      obtain ⟨rfl, -⟩ := hd
      exact (write_tagged _ _ _ _ _ h (hw tag rfl) q).1
    | _ => rw [q] at hd; rw [hd.1]; exact h
  | delete =>
    dsimp only at hd
    obtain ⟨c', e, ht⟩ := delete_tagged h (h0 rfl)
    rw [e] at hd
    cases hd.1
    exact ht

/-- **C84**: the audio survives as long as no process is killed while it writes or deletes, whoever else is killed. -/
theorem audio_survives [Platform] (contents : List UInt8) (calls : Nat → List FileCall) (s : KState)
    (h : KGuarded (.init (ofB contents) calls) s) (ho : ∀ e ∈ s.events, Orderly e) (h0 : tagLength (audio contents) = 0)
    (hn : ∀ i, ¬ Changing (s.procs i)) : Tagged (some s.dest) (audio contents) := by
  obtain ⟨file, h1, h2⟩ := killed_calls_serial (ofB contents) calls s h
  rw [h2 hn]
  clear h2 h hn
  revert ho
  generalize s.events = events at h1
  induction h1 with
  | nil => exact fun _ => tagged_self contents
  | over events e f f' _ hd ih =>
    intro ho
    refine does_tagged (ih fun e he => ho e (List.mem_append_left _ he)) hd ?_ fun _ => h0
    exact ho _ (List.mem_append_right _ (List.mem_singleton.mpr rfl))
  | killed events i c f f' _ hk ih =>
    intro ho
    have hc : c = .read := ho _ (List.mem_append_right _ (List.mem_singleton.mpr rfl))
    subst hc
    rcases hk with rfl | ⟨hk, -⟩
    · exact ih fun e he => ho e (List.mem_append_left _ he)
    · exact hk.elim

/-- **C84**: the audio that is left when a write is killed: what was already written of it. But if less than the ten bytes of
the header were written, these bytes are taken for the audio. -/
theorem audio_after_killed_write [Platform] (contents : List UInt8) (tag tag' : Tag) (new file' : Bytes) (hw : Writable tag)
    (h : ID3v2_write_tag (some (ofB contents)) tag = .ok (some new, tag')) (hp : file' <+: new) :
    if file'.length < 10 then
      Tagged (some file') ((tagHeaderBytes tag.header.major_version tag.header.minor_version tag.header.flags
        tag.header.tag_size).take file'.length)
    else Tagged (some file') ((audio contents).take (file'.length - (10 + tag.header.tag_size))) := by
  obtain ⟨-, cs, hc, hf, hlen⟩ := write_tagged _ _ _ _ _ (tagged_self contents) hw h
  obtain ⟨cs', rest, hc', e1, e2⟩ := written hw h
  cases Res.ok.inj (hc.symm.trans hc')
  cases hf
  obtain ⟨t, ht⟩ := hp
  have hf' : file' = (cs.stream ++ ofB (audio contents)).take file'.length := by rw [← ht, List.take_left]
  have h10 : (ofB (tagHeaderBytes tag.header.major_version tag.header.minor_version tag.header.flags
      tag.header.tag_size)).length = 10 := by simp [tagHeaderBytes, synchsafe]
  split
  · next hl =>
    have : file' = ofB ((tagHeaderBytes tag.header.major_version tag.header.minor_version tag.header.flags
        tag.header.tag_size).take file'.length) := by
      rw [e1, List.append_assoc, List.take_append_of_le_length (by omega), ofB_take] at hf'
      exact hf'
    have ht := tagged_self ((tagHeaderBytes tag.header.major_version tag.header.minor_version tag.header.flags
        tag.header.tag_size).take file'.length)
    rw [← this] at ht
    unfold audio at ht
    rwa [tagLength_short _ (by rw [List.length_take]; omega), List.drop_zero] at ht
  · next hl =>
    refine ⟨file', 10 + tag.header.tag_size, rfl, ?_, ?_⟩
    · rw [e1, List.append_assoc, List.take_append, List.take_of_length_le (by omega)] at hf'
      rw [hf']
      exact existing_size_header _ _ _ _ _ hw.2.1 hw.2.2
    · conv => lhs; rw [hf']
      rw [List.drop_take, ← hlen, List.drop_left, ofB_take]

/-- **C84**: the audio that is left when deleting is killed. -/
theorem audio_after_killed_delete [Platform] (contents : List UInt8) (new file' : Bytes) (h0 : tagLength (audio contents) = 0)
    (h : ID3v2_delete_tag (some (ofB contents)) = .ok (some new)) (hp : file' <+: new) :
    Tagged (some file') ((audio contents).take file'.length) := by
  rw [delete_leaves_audio] at h
  cases h
  obtain ⟨c, rfl, hc⟩ := ofB_prefix hp
  have h1 := tagged_self c
  unfold audio at h1
  rw [untagged_prefix hc h0, List.drop_zero] at h1
  obtain ⟨t, ht⟩ := hc
  rw [← ht, show (ofB c).length = c.length by simp [ofB], List.take_left]
  exact h1

/-- The processes of the following theorems: one writes, the others read. -/
def writerAndReaders (tag : Tag) : Nat → List FileCall := fun i => if i = 0 then [.write tag] else [.read]

theorem init_guarded [Platform] (contents : Bytes) (calls : Nat → List FileCall) :
    KGuarded (.init contents calls) (.init contents calls) :=
  .refl _ fun _ _ _ _ => rfl

/-- **C84**: whatever the file and the tag, a writer that is killed right after the header of the tag has reached the disk
makes the next reader, although it has the lock, branch on uninitialised memory. -/
theorem killed_writer_crashes_reader [Platform] (contents : List UInt8) (tag tag' : Tag) (file : File) (hw : Writable tag)
    (h10 : 10 < tag.header.tag_size) (h : ID3v2_write_tag (some (ofB contents)) tag = .ok (file, tag')) :
    ∃ s, KGuarded (.init (ofB contents) (writerAndReaders tag)) s ∧
      s.events = [.killed 0 (.write tag), .over ⟨1, .read, .ub .uninit⟩] := by
  obtain ⟨cs, rest, hc, e1, rfl⟩ := written hw h
  have hr := read_header_only tag.header.major_version tag.header.minor_version tag.header.flags tag.header.tag_size hw.2.1 h10
    hw.2.2
  have h1 := next_call_killed _ _ (init_guarded (ofB contents) (writerAndReaders tag)) (fun _ => rfl) 0 (.write tag) [] rfl
    (ofB (tagHeaderBytes tag.header.major_version tag.header.minor_version tag.header.flags tag.header.tag_size))
    (.inr ⟨trivial, _, some tag', by unfold CallDoes; dsimp only [KState.init]; rw [h]; exact ⟨rfl, rfl⟩,
      by rw [e1, List.append_assoc]; exact List.prefix_append _ _⟩)
  obtain ⟨d', r, e2, h2⟩ := next_call_after_kill _ _ h1 (by
    intro j
    dsimp only [KState.init]
    unfold setProc
    split <;> rfl) 1 .read [] rfl
  refine ⟨_, h2, ?_⟩
  obtain ⟨-, e2⟩ := e2
  dsimp only at e2
  rw [hr] at e2
  rw [e2]
  rfl

/-- **C84** as one would like it: under the lock the audio survives whatever happens to the processes. -/
def C84_claim : Prop :=
  ∀ [Platform] (contents : List UInt8) (calls : Nat → List FileCall) (s : KState),
    KGuarded (.init (ofB contents) calls) s → tagLength (audio contents) = 0 →
    (∀ i, ∀ tag, FileCall.write tag ∈ calls i → Writable tag) → (∀ i, ¬ Changing (s.procs i)) →
    Tagged (some s.dest) (audio contents)

/-- It is not: a writer that is killed after it has truncated the file. -/
theorem C84_false : ¬ C84_claim := by
  intro h
  obtain ⟨tag, tag', cs, file, t, hw, h10, hc, h1, e, -⟩ := sample_write [1, 2, 3]
  have g := @next_call_killed strict _ _ (@init_guarded strict (ofB [1, 2, 3]) (writerAndReaders tag)) (fun _ => rfl) 0
    (.write tag) [] rfl [] (.inr ⟨trivial, _, some tag', by
      unfold CallDoes; dsimp only [KState.init]; rw [h1, e]; exact ⟨rfl, rfl⟩, List.nil_prefix⟩)
  obtain ⟨c, n, e1, -, e2⟩ := @h strict [1, 2, 3] (writerAndReaders tag) _ g rfl (by
    intro i t ht
    unfold writerAndReaders at ht
    split at ht
    · rw [List.mem_singleton] at ht; cases ht; exact hw
    · rw [List.mem_singleton] at ht; cases ht) (by
    intro i hi
    refine hi.1 ?_
    dsimp only [KState.init]
    unfold setProc
    split <;> rfl)
  cases e1
  rw [List.drop_nil] at e2
  cases e2

/-- A run in which one process is killed while it writes, and another one then writes and is killed between two calls. -/
example : ∃ (tag : Tag) (s : KState), @KGuarded strict (.init (ofB [1, 2, 3]) fun i => if i < 2 then [.write tag] else []) s ∧
    (∃ r, s.events = [.killed 0 (.write tag), .over ⟨1, .write tag, r⟩]) ∧ ∀ i, ¬ Changing (s.procs i) := by
  obtain ⟨tag, tag', cs, file, t, hw, h10, hc, h1, e, -⟩ := sample_write [1, 2, 3]
  have g := @next_call_killed strict _ _ (@init_guarded strict (ofB [1, 2, 3]) fun i => if i < 2 then [.write tag] else [])
    (fun _ => rfl) 0 (.write tag) [] rfl [] (.inr ⟨trivial, _, some tag', by
      unfold CallDoes; dsimp only [KState.init]; rw [h1, e]; exact ⟨rfl, rfl⟩, List.nil_prefix⟩)
  have hi : ∀ j, (setProc (KState.init (ofB [1, 2, 3]) fun i => if i < 2 then [.write tag] else []).procs 0
      ⟨.idle, []⟩ j).phase = .idle := by
    intro j
    unfold setProc
    split <;> rfl
  obtain ⟨d', r, -, g2⟩ := @next_call_after_kill strict _ _ g hi 1 (.write tag) [] rfl
  refine ⟨tag, _, g2, ⟨r, rfl⟩, ?_⟩
  intro i hc
  refine hc.1 ?_
  dsimp only
  unfold setProc
  split
  · rfl
  · exact hi i

/-- The hypotheses of the theorems on the audio after a kill are met. -/
example : ∃ (tag tag' : Tag) (new : Bytes), Writable tag ∧ 10 < tag.header.tag_size ∧
    @ID3v2_write_tag strict (some (ofB [1, 2, 3])) tag = .ok (some new, tag') := by
  obtain ⟨tag, tag', cs, file, t, hw, h10, hc, h1, e, -⟩ := sample_write [1, 2, 3]
  exact ⟨tag, tag', _, hw, h10, by rw [h1, e]⟩

example : tagLength (audio ([0x49, 0x44, 0x33, 3, 0, 0, 0, 0, 0, 2, 9, 9] ++ [0xFF, 0xFB, 0x90])) = 0 := by decide

end Id3.Props

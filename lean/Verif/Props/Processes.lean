import Verif.Proof.Processes
import Verif.Props.Writers
import Verif.Props.Robust

/-!
# Any number of processes that use one file (C80)

With a readers-writer lock around every call the calls have the effects and results that they have one after the other, for
every schedule. Without a lock the file can be damaged (C59, C60); here is what can still be relied on.
-/

namespace Id3.Props

open Id3 Spec

/-! ## With a lock -/

theorem guarded_exclusive [Platform] {s t : PState} (h : Guarded s t) : Exclusive t := by
  cases h with
  | refl h => exact h
  | tail _ _ _ _ h => exact h

theorem lock_run [Platform] {c : Bytes} {calls : Nat → List FileCall} {s : PState} (h : Guarded (.init c calls) s) :
    LockInv c s := by
  induction h with
  | refl hx =>
    exact ⟨c, .nil, fun i => trivial, fun _ => rfl⟩
  | tail t u ht hu hx ih => exact lock_step ih (guarded_exclusive ht) hx hu

/-- **C80**: with a readers-writer lock around every call, for any number of processes, any calls and every schedule: the
calls that are over had the results that they have when they are made one after the other, in the order in which they ended,
and as long as no process writes or deletes the file is what they leave then. -/
theorem locked_calls_serial [Platform] (contents : Bytes) (calls : Nat → List FileCall) (s : PState)
    (h : Guarded (.init contents calls) s) :
    ∃ file, OneByOne contents s.log file ∧ ((∀ i, ¬ Changing (s.procs i)) → s.dest = file) := by
  obtain ⟨d, h1, -, h3⟩ := lock_run h
  exact ⟨d, h1, h3⟩

theorem callsOf_snoc (i : Nat) (log : List CallEntry) (e : CallEntry) :
    callsOf i (log ++ [e]) = if e.proc = i then callsOf i log ++ [e.call] else callsOf i log := by
  unfold callsOf
  rw [List.filter_append, List.map_append]
  by_cases h : e.proc = i
  · rw [if_pos h]; simp [h]
  · rw [if_neg h]; simp [h]

/-- **C80**: a process makes its calls in its order, in every schedule, with or without a lock; it omits calls only after one
that did not return. -/
theorem calls_in_order [Platform] (contents : Bytes) (calls : Nat → List FileCall) (s : PState)
    (h : PSteps (.init contents calls) s) (i : Nat) :
    callsOf i s.log ++ (s.procs i).todo = calls i ∨
      (callsOf i s.log <+: calls i ∧ (s.procs i).todo = [] ∧ ∃ e ∈ s.log, e.proc = i ∧ ∀ t, e.result ≠ .ok t) := by
  induction h with
  | refl => exact .inl rfl
  | tail t u _ hstep ih =>
    cases hstep with
    | start dest procs log j c cs hj =>
      dsimp only at ih ⊢
      by_cases hij : i = j
      · subst hij
        rw [setProc_self]
        rw [hj] at ih
        exact ih
      · rw [setProc_ne _ _ hij]; exact ih
    | work dest dest' procs log j p' hw =>
      dsimp only at ih ⊢
      by_cases hij : i = j
      · subst hij; rw [setProc_self]; exact ih
      · rw [setProc_ne _ _ hij]; exact ih
    | finish dest procs log j c cs r hr ht =>
      dsimp only at ih ⊢
      rw [callsOf_snoc]
      by_cases hij : i = j
      · subst hij
        rw [setProc_self, if_pos rfl]
        rcases ih with ih | ⟨-, ih, -⟩
        · rw [ht] at ih
          cases r with
          | ok t => exact .inl (by rw [← ih]; simp [afterResult])
          | _ =>
            refine .inr ⟨⟨cs, by rw [← ih]; simp⟩, rfl, _, List.mem_append_right _ (List.mem_singleton.mpr rfl), rfl, ?_⟩
            intro t ht
            cases ht
        · rw [ht] at ih; cases ih
      · rw [setProc_ne _ _ hij, if_neg (Ne.symm hij)]
        rcases ih with ih | ⟨h1, h2, e, h3, h4⟩
        · exact .inl ih
        · exact .inr ⟨h1, h2, e, List.mem_append_left _ h3, h4⟩

/-! ### Only readers -/

theorem only_reads [Platform] {contents : Bytes} {calls : Nat → List FileCall} (hr : ∀ i, ∀ c ∈ calls i, c = .read)
    {s : PState} (h : PSteps (.init contents calls) s) :
    Guarded (.init contents calls) s ∧ ∀ i, ¬ Changing (s.procs i) ∧ ∀ c ∈ (s.procs i).todo, c = .read := by
  have hx : ∀ t : PState, (∀ i, ¬ Changing (t.procs i)) → Exclusive t := fun t ht i _ _ hc => absurd hc (ht i)
  have htodo : ∀ t, PSteps (.init contents calls) t → ∀ i, ∀ c ∈ (t.procs i).todo, c = .read := by
    intro t ht i c hc
    rcases calls_in_order contents calls t ht i with e | ⟨-, e, -⟩
    · exact hr i c (by rw [← e]; exact List.mem_append_right _ hc)
    · rw [e] at hc; cases hc
  have hnc : ∀ t, PSteps (.init contents calls) t → ∀ i, ((t.procs i).phase = .idle ∨ (t.procs i).todo ≠ []) := by
    intro t ht
    induction ht with
    | refl => exact fun i => .inl rfl
    | tail t u _ hstep ih =>
      intro i
      cases hstep with
      | start dest procs log j c cs hj =>
        dsimp only
        by_cases hij : i = j
        · subst hij; rw [setProc_self]; exact .inr (by simp)
        · rw [setProc_ne _ _ hij]; exact ih i
      | work dest dest' procs log j p' hw =>
        dsimp only
        by_cases hij : i = j
        · subst hij
          rw [setProc_self]
          exact .inr ((ih i).resolve_left (call_step_not_idle hw).1)
        · rw [setProc_ne _ _ hij]; exact ih i
      | finish dest procs log j c cs r hr ht =>
        dsimp only
        by_cases hij : i = j
        · subst hij; rw [setProc_self]; exact .inl rfl
        · rw [setProc_ne _ _ hij]; exact ih i
  have hno : ∀ t, PSteps (.init contents calls) t → ∀ i, ¬ Changing (t.procs i) := by
    intro t ht i hc
    rcases hnc t ht i with e | e
    · exact hc.1 e
    · cases q : (t.procs i).todo with
      | nil => exact e q
      | cons c cs =>
        have := htodo t ht i c (by rw [q]; exact List.mem_cons_self)
        subst this
        exact hc.2 (by rw [q]; rfl)
  refine ⟨?_, fun i => ⟨hno s h i, htodo s h i⟩⟩
  induction h with
  | refl => exact .refl _ (hx _ (hno _ (.refl _)))
  | tail t u ht hstep ih =>
    exact .tail _ _ _ ih hstep (hx _ (hno _ (.tail _ _ _ ht hstep)))

theorem serial_reads [Platform] {contents file : Bytes} {log : List CallEntry} (h : OneByOne contents log file)
    (hr : ∀ e ∈ log, e.call = .read) : file = contents ∧ ∀ e ∈ log, e.result = ID3v2_read_tag (some contents) := by
  induction h with
  | nil => exact ⟨rfl, fun e he => by cases he⟩
  | snoc log e f f' _ hd ih =>
    obtain ⟨rfl, ih2⟩ := ih fun e he => hr e (List.mem_append_left _ he)
    have hc := hr e (List.mem_append_right _ (List.mem_singleton.mpr rfl))
    unfold CallDoes at hd
    rw [hc] at hd
    refine ⟨hd.1, fun e' he' => ?_⟩
    rcases List.mem_append.mp he' with he' | he'
    · exact ih2 e' he'
    · rw [List.mem_singleton.mp he']; exact hd.2

/-- **C80**: any number of processes may read at the same time without a lock: the file stays as it is and every call gets
what `ID3v2_read_tag` gets from it. -/
theorem readers_need_no_lock [Platform] (contents : Bytes) (calls : Nat → List FileCall)
    (hr : ∀ i, ∀ c ∈ calls i, c = .read) (s : PState) (h : PSteps (.init contents calls) s) :
    s.dest = contents ∧ ∀ e ∈ s.log, e.result = ID3v2_read_tag (some contents) := by
  obtain ⟨hg, hn⟩ := only_reads hr h
  obtain ⟨file, h1, h2⟩ := locked_calls_serial contents calls s hg
  have hlog : ∀ e ∈ s.log, e.call = .read := by
    intro e he
    have hm : e.call ∈ callsOf e.proc s.log := by
      unfold callsOf
      exact List.mem_map.mpr ⟨e, List.mem_filter.mpr ⟨he, by simp⟩, rfl⟩
    rcases calls_in_order contents calls s h e.proc with e' | ⟨⟨r, e'⟩, -⟩
    · exact hr e.proc _ (by rw [← e']; exact List.mem_append_left _ hm)
    · exact hr e.proc _ (by rw [← e']; exact List.mem_append_left _ hm)
  obtain ⟨rfl, h4⟩ := serial_reads h1 hlog
  exact ⟨h2 fun i => (hn i).1, h4⟩

/-! ### Every sequence of calls is possible -/

theorem psteps_trans [Platform] {s t u : PState} (h : PSteps s t) (h' : PSteps t u) : PSteps s u := by
  induction h' with
  | refl => exact h
  | tail a b _ hst ih => exact .tail _ _ _ ih hst

/-- Steps within one call. -/
inductive CallSteps [Platform] : Bytes → PPhase → Bytes → PPhase → Prop where
  | refl (dest : Bytes) (p : PPhase) : CallSteps dest p dest p
  | tail (d : Bytes) (p : PPhase) (d' d'' : Bytes) (p' p'' : PPhase) : CallSteps d p d' p' → CallStep d' p' d'' p'' → CallSteps d p d'' p''

theorem callsteps_trans [Platform] {a b c : Bytes} {p q r : PPhase} (h : CallSteps a p b q) (h' : CallSteps b q c r) :
    CallSteps a p c r := by
  induction h' with
  | refl => exact h
  | tail d' d'' p' p'' _ hst ih => exact .tail _ _ _ _ _ _ ih hst

theorem callsteps_reading [Platform] {d : Bytes} {r r' : RPhase} (h : RSteps d r r') :
    CallSteps d (.reading r) d (.reading r') := by
  induction h with
  | refl => exact .refl _ _
  | tail a b _ hst ih => exact .tail _ _ _ _ _ _ ih (.reading _ _ _ hst)

theorem callsteps_header [Platform] (d : Bytes) (call : FileCall) : ∀ (n : Nat) (got : Bytes), got <+: d →
    got.length + n = 10 → CallSteps d (.header call got) d (.header call (d.take 10)) ∧
      ((d.take 10).length = 10 ∨ d.length ≤ (d.take 10).length)
  | 0, got, hp, hn => by
    have : got = d.take 10 := take_of_prefix hp (by omega) (.inl (by omega))
    subst this
    exact ⟨.refl _ _, .inl (by omega)⟩
  | n + 1, got, hp, hn => by
    cases e : d[got.length]? with
    | none =>
      have hl : d.length ≤ got.length := List.getElem?_eq_none_iff.mp e
      have : got = d.take 10 := take_of_prefix hp (by omega) (.inr hl)
      subst this
      exact ⟨.refl _ _, .inr hl⟩
    | some c =>
      obtain ⟨h1, h2⟩ := callsteps_header d call n (got ++ [c]) (prefix_snoc hp (List.prefix_refl _) e) (by simp; omega)
      exact ⟨callsteps_trans (.tail _ _ _ _ _ _ (.refl _ _) (.getHeader _ _ _ _ (by omega) e)) h1, h2⟩

theorem callsteps_saving [Platform] (d : Bytes) (ret : Option Tag) : ∀ (n : Nat) (temp : Bytes) (pos : Nat),
    d.length - pos = n → CallSteps d (.saving temp pos ret) d (.saved (temp ++ d.drop pos) ret)
  | 0, temp, pos, hn => by
    rw [List.drop_eq_nil_of_le (by omega), List.append_nil]
    exact .tail _ _ _ _ _ _ (.refl _ _) (.eof _ _ _ _ (by omega))
  | n + 1, temp, pos, hn => by
    have hl : pos < d.length := by omega
    have h := callsteps_saving d ret n (temp ++ [d[pos]]) (pos + 1) (by omega)
    rw [List.append_assoc, List.singleton_append, ← List.drop_eq_getElem_cons hl] at h
    exact callsteps_trans (.tail _ _ _ _ _ _ (.refl _ _) (.save _ _ _ _ _ (List.getElem?_eq_getElem hl))) h

theorem callsteps_copying [Platform] (d : Bytes) (pos : Nat) (ret : Option Tag) : ∀ (rest buffer : Bytes),
    CallSteps d (.copying pos buffer rest ret) d (.copying pos (buffer ++ rest) [] ret)
  | [], buffer => by rw [List.append_nil]; exact .refl _ _
  | c :: rest, buffer => by
    have h := callsteps_copying d pos ret rest (buffer ++ [c])
    rw [List.append_assoc] at h
    exact callsteps_trans (.tail _ _ _ _ _ _ (.refl _ _) (.copy _ _ _ _ _ _)) h

/-- From the copied audio to the end of the call. -/
theorem callsteps_end [Platform] (d out : Bytes) (ret : Option Tag) :
    CallSteps d (.saved out ret) out (.done (.ok ret)) := by
  have h1 : CallSteps d (.saved out ret) [] (.copying 0 [] out ret) := .tail _ _ _ _ _ _ (.refl _ _) (.truncate _ _ _)
  have h2 := callsteps_trans h1 (callsteps_copying [] 0 ret out [])
  rw [List.nil_append, show PPhase.copying 0 out [] ret = .copying 0 (out ++ []) [] ret by rw [List.append_nil]] at h2
  have h3 := CallSteps.tail _ _ _ _ _ _ h2 (.flush [] out [] [] 0 ret)
  have e : writeAt [] 0 out = out := by
    unfold writeAt
    split
    · next h => rw [h]
    · simp
  rw [e] at h3
  exact .tail _ _ _ _ _ _ h3 (.close _ _ _)

/-- A call that nobody disturbs ends with its effect. -/
theorem call_ends [Platform] (call : FileCall) (d : Bytes) :
    ∃ d' r p, CallDoes call d d' r ∧ CallSteps d call.begin d' p ∧ p.result = some r := by
  cases call with
  | read => exact ⟨d, _, _, ⟨rfl, rfl⟩, callsteps_reading (reader_ends d), rfl⟩
  | write tag =>
    obtain ⟨h1, h2⟩ := callsteps_header d (.write tag) 10 [] List.nil_prefix rfl
    have h3 := CallSteps.tail _ _ _ _ _ _ h1 (.endHeader _ _ _ h2)
    unfold afterHeaderOf at h3
    dsimp only at h3
    have e := write_prepare d tag
    unfold CallDoes
    dsimp only
    generalize prepareWrite (d.take 10) tag = q at e h3
    cases q with
    | ok v =>
      obtain ⟨n, temp, tag'⟩ := v
      simp only [Res.bind_ok] at e
      rw [e]
      exact ⟨_, _, _, ⟨rfl, rfl⟩, callsteps_trans (callsteps_trans h3 (callsteps_saving d _ _ _ _ rfl)) (callsteps_end _ _ _), rfl⟩
    | _ =>
      replace e : ID3v2_write_tag (some d) tag = _ := e
      rw [e]
      exact ⟨_, _, _, ⟨rfl, rfl⟩, h3, rfl⟩
  | delete =>
    obtain ⟨h1, h2⟩ := callsteps_header d .delete 10 [] List.nil_prefix rfl
    have h3 := CallSteps.tail _ _ _ _ _ _ h1 (.endHeader _ _ _ h2)
    unfold afterHeaderOf at h3
    dsimp only at h3
    rw [header_take] at h3
    unfold CallDoes ID3v2_delete_tag
    dsimp only
    cases q : ID3v2_read_tag_header (some d) with
    | ok v =>
      rw [q] at h3
      cases v with
      | none => exact ⟨_, _, _, ⟨rfl, rfl⟩, h3, rfl⟩
      | some hd =>
        exact ⟨_, _, _, ⟨rfl, rfl⟩, callsteps_trans (callsteps_trans h3 (callsteps_saving d _ _ _ _ rfl)) (callsteps_end _ _ _), rfl⟩
    | _ =>
      rw [q] at h3
      exact ⟨_, _, _, ⟨rfl, rfl⟩, h3, rfl⟩

theorem callDoes_unique [Platform] {call : FileCall} {d a b : Bytes} {r r' : Res (Option Tag)} (h : CallDoes call d a r)
    (h' : CallDoes call d b r') : a = b ∧ r = r' := by
  unfold CallDoes at h h'
  cases call with
  | read => exact ⟨h.1.trans h'.1.symm, h.2.trans h'.2.symm⟩
  | write tag =>
    dsimp only at h h'
    generalize ID3v2_write_tag (some d) tag = q at h h'
    cases q with
    | ok v => exact ⟨Option.some.inj (h.1.symm.trans h'.1), h.2.trans h'.2.symm⟩
    | _ => exact ⟨h.1.trans h'.1.symm, h.2.trans h'.2.symm⟩
  | delete =>
    dsimp only at h h'
    generalize ID3v2_delete_tag (some d) = q at h h'
    cases q with
    | ok v => exact ⟨Option.some.inj (h.1.symm.trans h'.1), h.2.trans h'.2.symm⟩
    | _ => exact ⟨h.1.trans h'.1.symm, h.2.trans h'.2.symm⟩

theorem exclusive_one {s : PState} {i : Nat} (h : ∀ j, j ≠ i → (s.procs j).phase = .idle) : Exclusive s := by
  intro a b hab hc
  refine h b ?_
  rintro rfl
  exact hc.1 (h a hab)

theorem setProc_setProc (procs : Nat → Proc) (i : Nat) (p q : Proc) : setProc (setProc procs i p) i q = setProc procs i q := by
  funext j
  unfold setProc
  split <;> rfl

theorem guarded_work [Platform] {s0 : PState} {d d' : Bytes} {procs : Nat → Proc} {log : List CallEntry} {i : Nat}
    {p p' : PPhase} {todo : List FileCall} (hi : ∀ j, j ≠ i → (procs j).phase = .idle)
    (h : Guarded s0 ⟨d, setProc procs i ⟨p, todo⟩, log⟩) (hw : CallSteps d p d' p') :
    Guarded s0 ⟨d', setProc procs i ⟨p', todo⟩, log⟩ := by
  induction hw with
  | refl => exact h
  | tail b c q q' _ hst ih =>
    have := PStep.work b c (setProc procs i ⟨q, todo⟩) log i q' (by rw [setProc_self]; exact hst)
    rw [setProc_setProc, setProc_self] at this
    exact .tail _ _ _ ih this (exclusive_one (i := i) fun j hj => by dsimp only; rw [setProc_ne _ _ hj]; exact hi j hj)

/-- **C80**: a process that is not disturbed ends its next call, with the effect and result of the function. -/
theorem next_call_ends [Platform] (s0 s : PState) (h : Guarded s0 s) (hidle : ∀ j, (s.procs j).phase = .idle) (i : Nat)
    (c : FileCall) (cs : List FileCall) (ht : (s.procs i).todo = c :: cs) :
    ∃ (d' : Bytes) (r : Res (Option Tag)), CallDoes c s.dest d' r ∧
      Guarded s0 ⟨d', setProc s.procs i ⟨.idle, afterResult r cs⟩, s.log ++ [⟨i, c, r⟩]⟩ := by
  obtain ⟨d, procs, log⟩ := s
  dsimp only at hidle ht ⊢
  obtain ⟨d', r, p, h1, h2, h3⟩ := call_ends c d
  have hp : procs i = ⟨.idle, c :: cs⟩ := by
    have := hidle i
    generalize procs i = q at this ht
    obtain ⟨a, b⟩ := q
    cases this; cases ht; rfl
  have g1 := Guarded.tail _ _ _ h (.start d procs log i c cs hp)
    (exclusive_one (i := i) fun j hj => by dsimp only; rw [setProc_ne _ _ hj]; exact hidle j)
  have g2 := guarded_work (fun j _ => hidle j) g1 h2
  have g3 := PStep.finish d' (setProc procs i ⟨p, c :: cs⟩) log i c cs r (by rw [setProc_self]; exact h3) (by rw [setProc_self])
  rw [setProc_setProc] at g3
  exact ⟨d', r, h1, .tail _ _ _ g2 g3 (exclusive_one (i := i) fun j hj => by
    dsimp only; rw [setProc_ne _ _ hj]; exact hidle j)⟩

/-- The hypotheses are met: two processes that write and one that reads, one after the other, under the lock. -/
example : ∃ (tag : Tag) (s : PState) (r₁ r₂ r₃ : Res (Option Tag)),
    @Guarded strict (.init (ofB [1, 2, 3]) fun i => if i < 2 then [.write tag, .delete] else [.read]) s ∧
    s.log = [⟨0, .write tag, r₁⟩, ⟨1, .write tag, r₂⟩, ⟨2, .read, r₃⟩] ∧ ∀ i, ¬ Changing (s.procs i) := by
  obtain ⟨tag, -⟩ := sample_write [1, 2, 3]
  have idle : ∀ (procs : Nat → Proc) (i : Nat) (todo : List FileCall), (∀ j, (procs j).phase = .idle) →
      ∀ j, (setProc procs i ⟨.idle, todo⟩ j).phase = .idle := by
    intro procs i todo h j
    unfold setProc
    split
    · rfl
    · exact h j
  have g0 : @Guarded strict (.init (ofB [1, 2, 3]) fun i => if i < 2 then [.write tag, .delete] else [.read])
      (.init (ofB [1, 2, 3]) fun i => if i < 2 then [.write tag, .delete] else [.read]) :=
    @Guarded.refl strict _ fun _ _ _ _ => rfl
  obtain ⟨d₁, r₁, -, g1⟩ := @next_call_ends strict _ _ g0 (fun _ => rfl) 0 (.write tag) [.delete] rfl
  obtain ⟨d₂, r₂, -, g2⟩ := @next_call_ends strict _ _ g1 (idle _ _ _ fun _ => rfl) 1 (.write tag) [.delete] rfl
  obtain ⟨d₃, r₃, -, g3⟩ := @next_call_ends strict _ _ g2 (idle _ _ _ (idle _ _ _ fun _ => rfl)) 2 .read [] rfl
  exact ⟨tag, _, r₁, r₂, r₃, g3, rfl, fun i hc => hc.1 (idle _ _ _ (idle _ _ _ (idle _ _ _ fun _ => rfl)) i)⟩

end Id3.Props

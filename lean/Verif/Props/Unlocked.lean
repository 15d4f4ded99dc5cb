import Verif.Props.Processes

/-!
# Processes that use one file without a lock (C80)

What holds for every schedule of any number of processes that read, write and delete.
-/

namespace Id3.Props

open Id3 Spec

/-! ## Where the bytes come from -/

/-- All bytes that the process holds for the file, or has read of the header. -/
def HeldBytes (K : MByte → Prop) : PPhase → Prop
  | .header _ got => ∀ x ∈ got, K x
  | .saving temp _ _ => ∀ x ∈ temp, K x
  | .saved temp _ => ∀ x ∈ temp, K x
  | .copying _ buffer rest _ => (∀ x ∈ buffer, K x) ∧ ∀ x ∈ rest, K x
  | _ => True

theorem writeAt_bytes {K : MByte → Prop} (h0 : K (some 0)) {dest data : Bytes} {pos : Nat} (h1 : ∀ x ∈ dest, K x)
    (h2 : ∀ x ∈ data, K x) : ∀ x ∈ writeAt dest pos data, K x := by
  unfold writeAt
  split
  · exact h1
  · intro x hx
    rw [List.mem_append, List.mem_append, List.mem_append] at hx
    rcases hx with ((hx | hx) | hx) | hx
    · exact h1 x (List.mem_of_mem_take hx)
    · rw [(List.mem_replicate.mp hx).2]; exact h0
    · exact h2 x hx
    · exact h1 x (List.mem_of_mem_drop hx)

/-- The bytes of a tag do not depend on the file. -/
theorem prepare_bytes [Platform] {got : Bytes} {tag tag' : Tag} {n : Int} {temp : Bytes}
    (h : prepareWrite got tag = .ok (n, temp, tag')) : BytesOf tag temp := by
  unfold prepareWrite at h
  obtain ⟨m, h1, h⟩ := Res.bind_eq_ok.mp h
  refine ⟨_, tag', ?_, rfl⟩
  rw [write_prepare]
  unfold prepareWrite
  rw [show existingTagSize (some (([] : Bytes).take 10)) = .ok 0 from rfl]
  simp only [Res.bind_ok]
  obtain ⟨a, h2, h⟩ := Res.bind_eq_ok.mp h
  rw [h2]
  simp only [Res.bind_ok]
  obtain ⟨b, h3, h⟩ := Res.bind_eq_ok.mp h
  rw [h3]
  simp only [Res.bind_ok]
  obtain ⟨cs, h4, h⟩ := Res.bind_eq_ok.mp h
  rw [h4]
  simp only [Res.bind_ok]
  obtain ⟨t, h5, h⟩ := Res.bind_eq_ok.mp h
  rw [h5]
  simp only [Res.bind_ok]
  cases h
  show Res.ok (some (temp ++ List.drop 0 []), _) = _
  rw [List.drop_zero, List.append_nil]

theorem bytes_step [Platform] {K : MByte → Prop} (h0 : K (some 0)) {dest dest' : Bytes} {p p' : PPhase}
    (hw : ∀ tag got, p = .header (.write tag) got → ∀ b, BytesOf tag b → ∀ x ∈ b, K x)
    (h : CallStep dest p dest' p') (h1 : ∀ x ∈ dest, K x) (h2 : HeldBytes K p) :
    (∀ x ∈ dest', K x) ∧ HeldBytes K p' := by
  have hget : ∀ {i : Nat} {x : MByte}, dest[i]? = some x → K x := fun h => h1 _ (List.mem_of_getElem? h)
  have snoc : ∀ {l : Bytes} {x : MByte}, (∀ y ∈ l, K y) → K x → ∀ y ∈ l ++ [x], K y := by
    intro l x hl hx y hy
    rcases List.mem_append.mp hy with hy | hy
    · exact hl y hy
    · rw [List.mem_singleton.mp hy]; exact hx
  cases h with
  | reading r r' h => exact ⟨h1, trivial⟩
  | getHeader call got c hl hc => exact ⟨h1, snoc h2 (hget hc)⟩
  | endHeader call got hl =>
    refine ⟨h1, ?_⟩
    cases call with
    | read => trivial
    | write tag =>
      unfold afterHeaderOf
      dsimp only
      split
      · next n temp tag' e => exact hw tag got rfl temp (prepare_bytes e)
      all_goals trivial
    | delete =>
      unfold afterHeaderOf
      dsimp only
      split
      · trivial
      · exact fun x hx => by cases hx
      all_goals trivial
  | save temp pos ret c hc => exact ⟨h1, snoc h2 (hget hc)⟩
  | eof temp pos ret hl => exact ⟨h1, h2⟩
  | truncate temp ret => exact ⟨(by intro x hx; cases hx), (by intro x hx; cases hx), h2⟩
  | copy buffer rest pos ret c =>
    exact ⟨h1, snoc h2.1 (h2.2 c List.mem_cons_self), fun x hx => h2.2 x (List.mem_cons_of_mem _ hx)⟩
  | flush buf₁ buf₂ rest pos ret =>
    exact ⟨writeAt_bytes h0 h1 fun x hx => h2.1 x (List.mem_append_left _ hx),
      fun x hx => h2.1 x (List.mem_append_right _ hx), h2.2⟩
  | close pos ret => exact ⟨h1, trivial⟩

/-- The call that the process is in is the next one that it has to do, and that is one of its calls. -/
def AtCall (calls : List FileCall) (p : Proc) : Prop :=
  (∀ c ∈ p.todo, c ∈ calls) ∧
  match p.phase with
  | .idle => True
  | .reading _ => p.todo.head? = some .read
  | .header call _ => p.todo.head? = some call ∧ call ≠ .read
  | _ => ∃ c, p.todo.head? = some c ∧ c ≠ .read

theorem afterOf_shape [Platform] {call : FileCall} {got : Bytes} (h : call ≠ .read) :
    (∃ r, afterHeaderOf call got = .done r) ∨ ∃ temp n ret, afterHeaderOf call got = .saving temp n ret := by
  cases call with
  | read => exact absurd rfl h
  | write tag =>
    unfold afterHeaderOf
    dsimp only
    split
    · exact .inr ⟨_, _, _, rfl⟩
    all_goals exact .inl ⟨_, rfl⟩
  | delete =>
    unfold afterHeaderOf
    dsimp only
    split
    · exact .inl ⟨_, rfl⟩
    · exact .inr ⟨_, _, _, rfl⟩
    all_goals exact .inl ⟨_, rfl⟩

theorem at_call_step [Platform] {calls todo : List FileCall} {dest dest' : Bytes} {p p' : PPhase}
    (h : CallStep dest p dest' p') (ha : AtCall calls ⟨p, todo⟩) : AtCall calls ⟨p', todo⟩ := by
  refine ⟨ha.1, ?_⟩
  have ha := ha.2
  cases h with
  | endHeader call got hl =>
    dsimp only at ha ⊢
    rcases afterOf_shape (got := got) ha.2 with ⟨r, e⟩ | ⟨temp, n, ret, e⟩ <;> rw [e] <;> exact ⟨_, ha⟩
  | _ => exact ha

theorem at_call_run [Platform] {contents : Bytes} {calls : Nat → List FileCall} {s : PState}
    (h : PSteps (.init contents calls) s) (i : Nat) : AtCall (calls i) (s.procs i) := by
  induction h generalizing i with
  | refl => exact ⟨fun c hc => hc, trivial⟩
  | tail t u _ hstep ih =>
    cases hstep with
    | start dest procs log j c cs hj =>
      dsimp only at ih ⊢
      by_cases hij : i = j
      · subst hij
        rw [setProc_self]
        have := ih i
        rw [hj] at this
        refine ⟨this.1, ?_⟩
        cases c with
        | read => rfl
        | write tag => exact ⟨rfl, by simp⟩
        | delete => exact ⟨rfl, by simp⟩
      · rw [setProc_ne _ _ hij]; exact ih i
    | work dest dest' procs log j p' hw =>
      dsimp only at ih ⊢
      by_cases hij : i = j
      · subst hij
        rw [setProc_self]
        exact at_call_step hw (ih i)
      · rw [setProc_ne _ _ hij]; exact ih i
    | finish dest procs log j c cs r hr ht =>
      dsimp only at ih ⊢
      by_cases hij : i = j
      · subst hij
        rw [setProc_self]
        refine ⟨fun c' hc' => ?_, trivial⟩
        have := (ih i).1
        rw [ht] at this
        cases r with
        | ok t => exact this c' (List.mem_cons_of_mem _ hc')
        | _ => cases hc'
      · rw [setProc_ne _ _ hij]; exact ih i

theorem bytes_run [Platform] {K : MByte → Prop} (h0 : K (some 0)) {contents : Bytes} {calls : Nat → List FileCall}
    (hc : ∀ x ∈ contents, K x) (hw : ∀ i tag, .write tag ∈ calls i → ∀ b, BytesOf tag b → ∀ x ∈ b, K x) {s : PState}
    (h : PSteps (.init contents calls) s) : (∀ x ∈ s.dest, K x) ∧ ∀ i, HeldBytes K (s.procs i).phase := by
  induction h with
  | refl => exact ⟨hc, fun i => trivial⟩
  | tail t u hrun hstep ih =>
    have hat := at_call_run hrun
    cases hstep with
    | start dest procs log j c cs hj =>
      refine ⟨ih.1, fun i => ?_⟩
      dsimp only
      by_cases hij : i = j
      · subst hij
        rw [setProc_self]
        cases c with
        | read => trivial
        | write tag => exact fun x hx => by cases hx
        | delete => exact fun x hx => by cases hx
      · rw [setProc_ne _ _ hij]; exact ih.2 i
    | work dest dest' procs log j p' hst =>
      have := bytes_step h0 (p := (procs j).phase) (fun tag got e => by
        have := hat j
        refine hw j tag (this.1 _ ?_)
        have := this.2
        dsimp only at this
        rw [e] at this
        exact List.mem_of_head? this.1) hst ih.1 (ih.2 j)
      refine ⟨this.1, fun i => ?_⟩
      dsimp only
      by_cases hij : i = j
      · subst hij
        rw [setProc_self]
        exact this.2
      · rw [setProc_ne _ _ hij]; exact ih.2 i
    | finish dest procs log j c cs r hr ht =>
      refine ⟨ih.1, fun i => ?_⟩
      dsimp only
      by_cases hij : i = j
      · subst hij
        rw [setProc_self]
        trivial
      · rw [setProc_ne _ _ hij]; exact ih.2 i

/-- **C80**: no bytes are invented. In every schedule of any number of processes, at every moment, each byte of the file is a
byte of the file as it was, or a byte of a tag that one of the processes writes, or a zero. -/
theorem no_invented_bytes [Platform] (contents : Bytes) (calls : Nat → List FileCall) (s : PState)
    (h : PSteps (.init contents calls) s) (x : MByte) (hx : x ∈ s.dest) :
    x ∈ contents ∨ x = some 0 ∨ ∃ i tag bytes, .write tag ∈ calls i ∧ BytesOf tag bytes ∧ x ∈ bytes :=
  (bytes_run (K := fun x => x ∈ contents ∨ x = some 0 ∨ ∃ i tag bytes, .write tag ∈ calls i ∧ BytesOf tag bytes ∧ x ∈ bytes)
    (.inr (.inl rfl)) (fun _ h => .inl h) (fun i tag hi b hb _ hx => .inr (.inr ⟨i, tag, b, hi, hb, hx⟩)) h).1 x hx

/-! ## Nobody crashes but readers -/

theorem defined_ofB {l : Bytes} (h : ∀ x ∈ l, x ≠ none) : ∃ c : List UInt8, l = ofB c := by
  induction l with
  | nil => exact ⟨[], rfl⟩
  | cons x l ih =>
    obtain ⟨c, rfl⟩ := ih fun y hy => h y (List.mem_cons_of_mem _ hy)
    cases x with
    | none => exact absurd rfl (h none List.mem_cons_self)
    | some b => exact ⟨b :: c, rfl⟩

/-- A process that writes or deletes has not crashed and will return the right thing. -/
def WillReturn [Platform] (p : Proc) : Prop :=
  match p.phase with
  | .saving _ _ ret => ∃ c, p.todo.head? = some c ∧ Returns c ret
  | .saved _ ret => ∃ c, p.todo.head? = some c ∧ Returns c ret
  | .copying _ _ _ ret => ∃ c, p.todo.head? = some c ∧ Returns c ret
  | .done r => ∃ c ret, p.todo.head? = some c ∧ Returns c ret ∧ r = .ok ret
  | _ => True

theorem prepare_ok [Platform] {tag tag' : Tag} {f : File} (h : ID3v2_write_tag (some []) tag = .ok (f, tag'))
    (got : List UInt8) : ∃ n b, prepareWrite (ofB got) tag = .ok (n, b, tag') := by
  rw [write_prepare] at h
  obtain ⟨⟨n, temp, tag''⟩, h1, h2⟩ := Res.bind_eq_ok.mp h
  cases h2
  unfold prepareWrite at h1 ⊢
  rw [existing_size]
  rw [show existingTagSize (some (([] : Bytes).take 10)) = .ok 0 from rfl] at h1
  simp only [Res.bind_ok] at h1 ⊢
  obtain ⟨a, h2, h1⟩ := Res.bind_eq_ok.mp h1
  rw [h2]
  simp only [Res.bind_ok]
  obtain ⟨b, h3, h1⟩ := Res.bind_eq_ok.mp h1
  rw [h3]
  simp only [Res.bind_ok]
  obtain ⟨cs, h4, h1⟩ := Res.bind_eq_ok.mp h1
  rw [h4]
  simp only [Res.bind_ok]
  obtain ⟨t, h5, h1⟩ := Res.bind_eq_ok.mp h1
  rw [h5]
  simp only [Res.bind_ok]
  cases h1
  exact ⟨_, _, rfl⟩

theorem will_return_run [Platform] {contents : Bytes} {calls : Nat → List FileCall}
    (hc : ∀ x ∈ contents, x ≠ none)
    (hw : ∀ i tag, .write tag ∈ calls i → ∃ b, BytesOf tag b ∧ ∀ x ∈ b, x ≠ none) {s : PState}
    (h : PSteps (.init contents calls) s) :
    (∀ i, WillReturn (s.procs i)) ∧ ∀ e ∈ s.log, e.call ≠ .read → ∃ ret, Returns e.call ret ∧ e.result = .ok ret := by
  have huniq : ∀ {tag : Tag} {a b : Bytes}, BytesOf tag a → BytesOf tag b → a = b := by
    rintro tag a b ⟨f, t, h, rfl⟩ ⟨f', t', h', rfl⟩
    rw [h] at h'
    cases h'; rfl
  have hw' : ∀ i tag, .write tag ∈ calls i → ∀ b, BytesOf tag b → ∀ x ∈ b, x ≠ none := by
    intro i tag hi b hb
    obtain ⟨b', hb', h⟩ := hw i tag hi
    rw [huniq hb hb']; exact h
  induction h with
  | refl => exact ⟨fun i => trivial, fun e he => by cases he⟩
  | tail t u hrun hstep ih =>
    have hat := at_call_run hrun
    have hby := bytes_run (K := fun x => x ≠ none) (by simp) hc hw' hrun
    cases hstep with
    | start dest procs log j c cs hj =>
      refine ⟨fun i => ?_, ih.2⟩
      dsimp only
      by_cases hij : i = j
      · subst hij
        rw [setProc_self]
        cases c <;> trivial
      · rw [setProc_ne _ _ hij]; exact ih.1 i
    | work dest dest' procs log j p' hst =>
      refine ⟨fun i => ?_, ih.2⟩
      dsimp only
      by_cases hij : i = j
      · subst hij
        rw [setProc_self]
        have hh := hby.2 i
        have ha := hat i
        have hold := ih.1 i
        unfold WillReturn at hold
        dsimp only at hh ha hold
        have ha2 := ha.2
        generalize (procs i).phase = p at hh hst hold ha2
        cases hst with
        | reading => trivial
        | getHeader => trivial
        | endHeader call got hl =>
          obtain ⟨g, rfl⟩ := defined_ofB hh
          unfold WillReturn
          dsimp only
          cases call with
          | read => exact absurd rfl ha2.2
          | write tag =>
            obtain ⟨b, ⟨f, t, hb, -⟩, -⟩ := hw i tag (ha.1 _ (List.mem_of_head? ha2.1))
            obtain ⟨n, b', e⟩ := prepare_ok hb g
            unfold afterHeaderOf
            dsimp only
            rw [e]
            exact ⟨_, ha2.1, _, _, hb, rfl⟩
          | delete =>
            obtain ⟨r, e, -⟩ := read_header_spec g
            unfold afterHeaderOf
            dsimp only
            rw [e]
            cases r with
            | none => exact ⟨_, _, ha2.1, rfl, rfl⟩
            | some h => exact ⟨_, ha2.1, rfl⟩
        | save => exact hold
        | eof => exact hold
        | truncate => exact hold
        | copy => exact hold
        | flush => exact hold
        | close pos ret =>
          obtain ⟨c, h1, h2⟩ := hold
          exact ⟨c, ret, h1, h2, rfl⟩
      · rw [setProc_ne _ _ hij]; exact ih.1 i
    | finish dest procs log j c cs r hr ht =>
      refine ⟨fun i => ?_, fun e he hn => ?_⟩
      · dsimp only
        by_cases hij : i = j
        · subst hij; rw [setProc_self]; trivial
        · rw [setProc_ne _ _ hij]; exact ih.1 i
      · rcases List.mem_append.mp he with he | he
        · exact ih.2 e he hn
        · rw [List.mem_singleton.mp he] at hn ⊢
          dsimp only at hn ⊢
          have ha := (hat j).2
          have hold := ih.1 j
          unfold WillReturn at hold
          dsimp only at ha hold
          rw [ht] at ha hold
          cases q : (procs j).phase with
          | done r' =>
            rw [q] at hold hr
            cases hr
            obtain ⟨c', ret, e1, e2, e3⟩ := hold
            cases e1
            exact ⟨ret, e2, e3⟩
          | reading r' =>
            rw [q] at ha
            cases ha
            exact absurd rfl hn
          | _ => rw [q] at hr; cases hr

/-- **C80**: whatever the others do, `ID3v2_write_tag` and `ID3v2_delete_tag` return, in every schedule, and the tag of the
caller is as always, if the file has no indeterminate bytes and the tags can be written. -/
theorem writers_return [Platform] (contents : List UInt8) (calls : Nat → List FileCall)
    (hw : ∀ i tag, .write tag ∈ calls i → ∃ bytes : List UInt8, BytesOf tag (ofB bytes)) (s : PState)
    (h : PSteps (.init (ofB contents) calls) s) (e : CallEntry) (he : e ∈ s.log) (hc : e.call ≠ .read) :
    ∃ ret, Returns e.call ret ∧ e.result = .ok ret := by
  have hd : ∀ l : List UInt8, ∀ x ∈ ofB l, x ≠ none := by
    intro l x hx
    obtain ⟨b, -, rfl⟩ := List.mem_map.mp hx
    simp
  exact (will_return_run (hd contents) (fun i tag hi => by
    obtain ⟨b, hb⟩ := hw i tag hi
    exact ⟨_, hb, hd b⟩) h).2 e he hc

/-! ### Readers -/

theorem sat_header [Platform] (got : Bytes) : match afterHeader got with
    | .header _ => False
    | .body n _ => 0 ≤ n
    | .done r => (∃ t, r = .ok t) ∨ ∃ k, r = .ub k ∧ k ∈ [UB.oobRead, .uninit, .vlaSize, .stackOverflow, .intOverflow] := by
  unfold afterHeader
  by_cases hl : got.length < 10
  · rw [if_pos hl]; exact .inl ⟨_, rfl⟩
  · rw [if_neg hl]
    have hh : Sat (fun r => ∀ h, r = some h → h.tag_size < 2 ^ 29) (ID3v2_read_tag_header_from_buffer got) := by
      unfold ID3v2_read_tag_header_from_buffer CharStream_from_buffer
      have hb : Sat (Good (got.take 10)) (memcpySrc got 10 >>= fun data =>
          pure { stream := data, cursor := 0, size := 10 }) := by
        refine (sat_memcpySrc _ _ (by omega)).bind fun d hd => ?_
        obtain ⟨rfl, hd⟩ := hd
        refine ⟨?_, ?_, Int.le_refl _, ?_⟩
        · rfl
        · dsimp only; rw [List.length_take]; omega
        · dsimp only; omega
      refine hb.bind fun cs hcs => ?_
      refine (sat_tagHeader_parse _ cs hcs).bind fun r hr => ?_
      exact hr.2
    cases e : ID3v2_read_tag_header_from_buffer got with
    | ok r =>
      rw [e] at hh
      cases r with
      | none => exact .inl ⟨_, rfl⟩
      | some h =>
        have hs := hh h rfl
        dsimp only
        unfold toInt32 u32
        split <;> omega
    | ub k =>
      rw [e] at hh
      refine .inr ⟨k, rfl, ?_⟩
      cases k <;> first | decide | cases hh
    | exit => rw [e] at hh; exact hh.elim
    | diverge => rw [e] at hh; exact hh.elim

/-- How far a reader can come. -/
def ReaderSafe : PPhase → Prop
  | .reading (.body n _) => 0 ≤ n
  | .reading (.done r) => (∃ t, r = .ok t) ∨ ∃ k, r = .ub k ∧ k ∈ [UB.oobRead, .uninit, .vlaSize, .stackOverflow, .intOverflow]
  | _ => True

theorem reader_step [Platform] {dest dest' : Bytes} {p p' : PPhase} (h : CallStep dest p dest' p') (hs : ReaderSafe p)
    (hr : ∀ got, p ≠ .header .read got) : ReaderSafe p' := by
  cases h with
  | reading r r' h =>
    cases h with
    | getHeader => trivial
    | endHeader got hl =>
      have := sat_header got
      cases e : afterHeader got with
      | header g => trivial
      | body n g => rw [e] at this; exact this
      | done r => rw [e] at this; exact this
    | getBody n got c hl hc => exact hs
    | endBody n got hl => exact read_safe_partial _ _ hs
  | endHeader call got hl =>
    rcases afterOf_shape (call := call) (got := got) (by rintro rfl; exact hr got rfl) with ⟨r, e⟩ | ⟨temp, n, ret, e⟩ <;>
      rw [e] <;> trivial
  | _ => trivial

/-- **C80**: whatever the others do, a reader returns or runs into one of the five kinds of undefined behaviour of a hostile
file (C18), in every schedule. In particular it does not write out of bounds, dereference NULL or free anything wrongly. -/
theorem readers_as_safe_as_alone [Platform] (contents : Bytes) (calls : Nat → List FileCall) (s : PState)
    (h : PSteps (.init contents calls) s) (e : CallEntry) (he : e ∈ s.log) (hc : e.call = .read) :
    (∃ t, e.result = .ok t) ∨
    ∃ k, e.result = .ub k ∧ k ∈ [UB.oobRead, .uninit, .vlaSize, .stackOverflow, .intOverflow] := by
  have key : (∀ i, ReaderSafe (s.procs i).phase) ∧ ∀ e ∈ s.log, e.call = .read → (∃ t, e.result = .ok t) ∨
      ∃ k, e.result = .ub k ∧ k ∈ [UB.oobRead, .uninit, .vlaSize, .stackOverflow, .intOverflow] := by
    clear he
    induction h with
    | refl => exact ⟨fun i => trivial, fun e he => by cases he⟩
    | tail t u hrun hstep ih =>
      have hat := at_call_run hrun
      cases hstep with
      | start dest procs log j c cs hj =>
        refine ⟨fun i => ?_, ih.2⟩
        dsimp only
        by_cases hij : i = j
        · subst hij
          rw [setProc_self]
          cases c <;> trivial
        · rw [setProc_ne _ _ hij]; exact ih.1 i
      | work dest dest' procs log j p' hst =>
        refine ⟨fun i => ?_, ih.2⟩
        dsimp only
        by_cases hij : i = j
        · subst hij
          rw [setProc_self]
          refine reader_step hst (ih.1 i) fun got e => ?_
          have ha := (hat i).2
          dsimp only at ha
          rw [e] at ha
          exact ha.2 rfl
        · rw [setProc_ne _ _ hij]; exact ih.1 i
      | finish dest procs log j c cs r hr ht =>
        refine ⟨fun i => ?_, fun e he hn => ?_⟩
        · dsimp only
          by_cases hij : i = j
          · subst hij; rw [setProc_self]; trivial
          · rw [setProc_ne _ _ hij]; exact ih.1 i
        · rcases List.mem_append.mp he with he | he
          · exact ih.2 e he hn
          · rw [List.mem_singleton.mp he] at hn ⊢
            dsimp only at hn ⊢
            subst hn
            have ha := (hat j).2
            have hold := ih.1 j
            dsimp only at ha hold
            rw [ht] at ha
            cases q : (procs j).phase with
            | done r' =>
              rw [q] at ha
              obtain ⟨c, e1, e2⟩ := ha
              cases e1
              exact absurd rfl e2
            | reading r' =>
              rw [q] at hr hold
              cases r' with
              | done r'' => cases hr; exact hold
              | _ => cases hr
            | _ => rw [q] at hr; cases hr
  exact key.2 e he hc

/-! ## Position by position -/

/-- Something that one of these calls may copy to the file: a tag followed by bytes of the file, or bytes of the file. -/
def Output [Platform] (calls : Nat → List FileCall) (o : Bytes) : Prop :=
  ∃ i, (∃ tag bytes, .write tag ∈ calls i ∧ BytesOf tag bytes ∧ bytes <+: o) ∨ .delete ∈ calls i

theorem Output.append [Platform] {calls : Nat → List FileCall} {o : Bytes} (h : Output calls o) (r : Bytes) :
    Output calls (o ++ r) := by
  obtain ⟨i, ⟨tag, b, h1, h2, h3⟩ | h⟩ := h
  · exact ⟨i, .inl ⟨tag, b, h1, h2, h3.trans (List.prefix_append _ _)⟩⟩
  · exact ⟨i, .inr h⟩

/-- What a process has for the file; `outs` is what the processes have copied or are copying. -/
def Holds [Platform] (calls : Nat → List FileCall) (outs : List Bytes) : PPhase → Prop
  | .saving temp _ _ => Output calls temp
  | .saved temp _ => Output calls temp
  | .copying pos buffer rest _ => ∃ done, done.length = pos ∧ done ++ (buffer ++ rest) ∈ outs
  | .done (.ok (some _)) => outs ≠ []
  | _ => True

theorem Holds.mono [Platform] {calls : Nat → List FileCall} {outs : List Bytes} {p : PPhase} (o : Bytes)
    (h : Holds calls outs p) : Holds calls (o :: outs) p := by
  cases p with
  | copying pos buffer rest ret =>
    obtain ⟨done, h1, h2⟩ := h
    exact ⟨done, h1, List.mem_cons_of_mem _ h2⟩
  | done r =>
    cases r with
    | ok t =>
      cases t with
      | none => trivial
      | some t => exact List.cons_ne_nil _ _
    | _ => trivial
  | _ => exact h

/-- Position `k` of the file holds the byte at this position of one of `outs`. -/
def From (outs : List Bytes) (dest : Bytes) (k : Nat) : Prop := ∃ x, dest[k]? = some x ∧ ∃ o ∈ outs, o[k]? = some x

/-- The beginning of the file, as far as one of the processes has written, has no gaps. -/
def Front (outs : List Bytes) (dest : Bytes) (procs : Nat → Proc) : Prop :=
  ∃ o ∈ outs, ∃ w, (∀ k, k < w → From outs dest k) ∧
    (w = o.length ∨ ∃ i done buffer rest ret, (procs i).phase = .copying w buffer rest ret ∧ done.length = w ∧
      done ++ (buffer ++ rest) = o)

/-- The file in any schedule. -/
def Patched [Platform] (contents : Bytes) (calls : Nat → List FileCall) (outs : List Bytes) (s : PState) : Prop :=
  (∀ o ∈ outs, Output calls o) ∧ (∀ i, Holds calls outs (s.procs i).phase) ∧
  (∀ e ∈ s.log, e.call ≠ .read → ∀ t, e.result = .ok (some t) → outs ≠ []) ∧
  ((outs = [] ∧ s.dest = contents) ∨
    ((∀ (k : Nat) (x : MByte), s.dest[k]? = some x → x = some 0 ∨ ∃ o ∈ outs, o[k]? = some x) ∧
     (s.dest = [] ∨ ∃ o ∈ outs, s.dest.length ≤ o.length) ∧ Front outs s.dest s.procs))

theorem front_set {outs : List Bytes} {dest : Bytes} {procs : Nat → Proc} {i : Nat} {p : Proc}
    (h : Front outs dest procs) (hp : ∀ w b r t, (procs i).phase ≠ .copying w b r t) : Front outs dest (setProc procs i p) := by
  obtain ⟨o, ho, w, h1, h2⟩ := h
  refine ⟨o, ho, w, h1, h2.imp id ?_⟩
  rintro ⟨j, done, b, r, t, e1, e2⟩
  refine ⟨j, done, b, r, t, ?_, e2⟩
  have hj : j ≠ i := by rintro rfl; exact hp _ _ _ _ e1
  rw [setProc_ne _ _ hj]; exact e1

theorem patched_work [Platform] {contents dest dest' : Bytes} {calls : Nat → List FileCall} {outs : List Bytes}
    {procs : Nat → Proc} {log : List CallEntry} {i : Nat} {p' : PPhase} (hat : AtCall (calls i) (procs i))
    (hs : Patched contents calls outs ⟨dest, procs, log⟩) (h : CallStep dest (procs i).phase dest' p') :
    ∃ outs', Patched contents calls outs' ⟨dest', setProc procs i ⟨p', (procs i).todo⟩, log⟩ := by
  obtain ⟨h1, h2, hlog, h3⟩ := hs
  have hself := h2 i
  dsimp only at h2 h3 hself
  -- a step that changes neither the file nor what is copied
  have quiet : dest' = dest → Holds calls outs p' → (∀ w b r t, (procs i).phase ≠ .copying w b r t) →
      ∃ outs', Patched contents calls outs' ⟨dest', setProc procs i ⟨p', (procs i).todo⟩, log⟩ := by
    rintro rfl hp hn
    refine ⟨outs, h1, fun j => ?_, hlog, h3.imp id fun ⟨a, b, c⟩ => ⟨a, b, front_set c hn⟩⟩
    dsimp only
    by_cases hj : j = i
    · subst hj; rw [setProc_self]; exact hp
    · rw [setProc_ne _ _ hj]; exact h2 j
  have others : ∀ {outs' : List Bytes}, (∀ p, Holds calls outs p → Holds calls outs' p) → Holds calls outs' p' →
      ∀ j, Holds calls outs' (setProc procs i ⟨p', (procs i).todo⟩ j).phase := by
    intro outs' hm hp j
    by_cases hj : j = i
    · subst hj; rw [setProc_self]; exact hp
    · rw [setProc_ne _ _ hj]; exact hm _ (h2 j)
  generalize hq : (procs i).phase = q at h hself quiet
  cases h with
  | reading r r' h => exact quiet rfl trivial (by simp)
  | getHeader call got c hl hc => exact quiet rfl trivial (by simp)
  | endHeader call got hl =>
    refine quiet rfl ?_ (by simp)
    have ha := hat.2
    rw [hq] at ha
    have hmem := hat.1 _ (List.mem_of_head? ha.1)
    cases call with
    | read => exact absurd rfl ha.2
    | write tag =>
      unfold afterHeaderOf
      dsimp only
      split
      · next n temp tag' e => exact ⟨i, .inl ⟨tag, temp, hmem, prepare_bytes e, List.prefix_refl _⟩⟩
      all_goals trivial
    | delete =>
      unfold afterHeaderOf
      dsimp only
      split
      · trivial
      · exact ⟨i, .inr hmem⟩
      all_goals trivial
  | save temp pos ret c hc => exact quiet rfl (Output.append hself _) (by simp)
  | eof temp pos ret hl => exact quiet rfl hself (by simp)
  | truncate temp ret =>
    refine ⟨temp :: outs, ?_, others (fun p hp => hp.mono _) ⟨[], rfl, List.mem_cons_self⟩, fun _ _ _ _ _ => by simp, .inr ⟨?_, .inl rfl, ?_⟩⟩
    · intro o ho
      rcases List.mem_cons.mp ho with rfl | ho
      · exact hself
      · exact h1 o ho
    · intro k x hx; cases hx
    · refine ⟨temp, List.mem_cons_self, 0, fun k hk => absurd hk (Nat.not_lt_zero _), .inr ⟨i, [], [], temp, ret, ?_, rfl, rfl⟩⟩
      dsimp only
      rw [setProc_self]
  | copy buffer rest pos ret c =>
    obtain ⟨done, hd, ho⟩ := hself
    have e : done ++ (buffer ++ c :: rest) = done ++ (buffer ++ [c] ++ rest) := by simp
    rw [e] at ho
    refine ⟨outs, h1, others (fun p hp => hp) ⟨done, hd, ho⟩, hlog, h3.imp id fun ⟨a, b, o, f1, w, f2, f3⟩ => ⟨a, b, o, f1, w, f2, ?_⟩⟩
    refine f3.imp id ?_
    rintro ⟨j, done', b', r', t', e1, e2, e3⟩
    dsimp only
    by_cases hj : j = i
    · subst hj
      rw [hq] at e1
      cases e1
      exact ⟨j, done', _, _, _, by rw [setProc_self], e2, by rw [← e3]; simp⟩
    · exact ⟨j, done', b', r', t', by rw [setProc_ne _ _ hj]; exact e1, e2, e3⟩
  | flush buf₁ buf₂ rest pos ret =>
    obtain ⟨done, hd, ho⟩ := hself
    have e : done ++ (buf₁ ++ buf₂ ++ rest) = done ++ buf₁ ++ (buf₂ ++ rest) := by simp
    rw [e] at ho
    have hne : outs ≠ [] := by intro h; rw [h] at ho; cases ho
    have hget : ∀ k, pos ≤ k → k < pos + buf₁.length → ∃ x, buf₁[k - pos]? = some x ∧
        (done ++ buf₁ ++ (buf₂ ++ rest))[k]? = some x := by
      intro k hk hj
      refine ⟨buf₁[k - pos]'(by omega), List.getElem?_eq_getElem (by omega), ?_⟩
      rw [List.getElem?_append_left (by rw [List.length_append]; omega), List.getElem?_append_right (by omega), hd,
        List.getElem?_eq_getElem (by omega)]
    rcases h3 with ⟨h, -⟩ | ⟨m1, m2, o, f1, w, f2, f3⟩
    · exact absurd h hne
    have keep : ∀ k, From outs dest k → From outs (writeAt dest pos buf₁) k := by
      rintro k ⟨x, hx, h⟩
      unfold From
      rw [writeAt_get]
      split
      · exact ⟨x, hx, h⟩
      · split
        · rw [if_pos (List.getElem?_eq_some_iff.mp hx).1]
          exact ⟨x, hx, h⟩
        · split
          · obtain ⟨y, hy, hz⟩ := hget k (by omega) (by assumption)
            exact ⟨y, hy, _, ho, hz⟩
          · exact ⟨x, hx, h⟩
    refine ⟨outs, h1, others (fun p hp => hp) ⟨done ++ buf₁, by rw [List.length_append, hd], ho⟩, hlog, .inr ⟨?_, ?_, ?_⟩⟩
    · intro k x hx
      dsimp only at hx
      rw [writeAt_get] at hx
      split at hx
      · exact m1 k x hx
      · split at hx
        · split at hx
          · exact m1 k x hx
          · cases hx; exact .inl rfl
        · split at hx
          · next g3 g4 =>
            obtain ⟨y, hy, hz⟩ := hget k (by omega) g4
            rw [hy] at hx
            cases hx
            exact .inr ⟨_, ho, hz⟩
          · exact m1 k x hx
    · dsimp only
      have hlen : pos + buf₁.length ≤ (done ++ buf₁ ++ (buf₂ ++ rest)).length := by
        simp only [List.length_append]; omega
      have hwl := writeAt_length dest pos buf₁
      split at hwl
      · next hb =>
        have : writeAt dest pos buf₁ = dest := by unfold writeAt; rw [if_pos hb]
        rw [this]
        exact m2
      · rcases m2 with rfl | ⟨o', ho', hl'⟩
        · exact .inr ⟨_, ho, by rw [hwl]; simp only [List.length_nil]; omega⟩
        · by_cases hc : dest.length ≤ pos + buf₁.length
          · exact .inr ⟨_, ho, by rw [hwl]; omega⟩
          · exact .inr ⟨o', ho', by rw [hwl]; omega⟩
    · dsimp only
      rcases f3 with f3 | ⟨j, done', b', r', t', e1, e2, e3⟩
      · exact ⟨o, f1, w, fun k hk => keep k (f2 k hk), .inl f3⟩
      · by_cases hj : j = i
        · subst hj
          rw [hq] at e1
          cases e1
          refine ⟨o, f1, pos + buf₁.length, fun k hk => ?_, .inr ⟨j, done' ++ buf₁, buf₂, rest, ret, by rw [setProc_self],
            by rw [List.length_append, e2], by rw [← e3]; simp⟩⟩
          by_cases hk' : k < pos
          · exact keep k (f2 k hk')
          · obtain ⟨y, hy, hz⟩ := hget k (by omega) hk
            refine ⟨y, ?_, _, ho, hz⟩
            rw [writeAt_get, if_neg (by intro h; subst h; simp at hk; omega), if_neg hk', if_pos hk, hy]
        · exact ⟨o, f1, w, fun k hk => keep k (f2 k hk), .inr ⟨j, done', b', r', t', by rw [setProc_ne _ _ hj]; exact e1, e2, e3⟩⟩
  | close pos ret =>
    obtain ⟨done, hd, ho⟩ := hself
    have hne : outs ≠ [] := by intro h; rw [h] at ho; cases ho
    refine ⟨outs, h1, others (fun p hp => hp) (by cases ret <;> first | trivial | exact hne), hlog, h3.imp id fun ⟨a, b, o, f1, w, f2, f3⟩ => ⟨a, b, o, f1, w, f2, ?_⟩⟩
    rcases f3 with f3 | ⟨j, done', b', r', t', e1, e2, e3⟩
    · exact .inl f3
    · dsimp only
      by_cases hj : j = i
      · subst hj
        rw [hq] at e1
        cases e1
        exact .inl (by rw [← e3, ← e2]; simp)
      · exact .inr ⟨j, done', b', r', t', by rw [setProc_ne _ _ hj]; exact e1, e2, e3⟩

theorem patched_run [Platform] {contents : Bytes} {calls : Nat → List FileCall} {s : PState}
    (h : PSteps (.init contents calls) s) : ∃ outs, Patched contents calls outs s := by
  induction h with
  | refl => exact ⟨[], fun o ho => (by cases ho), fun i => trivial, fun e he => (by cases he), .inl ⟨rfl, rfl⟩⟩
  | tail t u hrun hstep ih =>
    have hat := at_call_run hrun
    obtain ⟨outs, ih⟩ := ih
    cases hstep with
    | start dest procs log j c cs hj =>
      obtain ⟨h1, h2, hlog, h3⟩ := ih
      refine ⟨outs, h1, fun i => ?_, hlog, h3.imp id fun ⟨a, b, c⟩ => ⟨a, b, front_set c (by rw [hj]; simp)⟩⟩
      dsimp only
      by_cases hij : i = j
      · subst hij; rw [setProc_self]; cases c <;> trivial
      · rw [setProc_ne _ _ hij]; exact h2 i
    | work dest dest' procs log j p' hst => exact patched_work (hat j) ih hst
    | finish dest procs log j c cs r hr ht =>
      obtain ⟨h1, h2, hlog, h3⟩ := ih
      refine ⟨outs, h1, fun i => ?_, fun e he hn t et => ?_, h3.imp id fun ⟨a, b, c⟩ => ⟨a, b, front_set c ?_⟩⟩
      rotate_left
      · rcases List.mem_append.mp he with he | he
        · exact hlog e he hn t et
        · rw [List.mem_singleton.mp he] at hn et
          dsimp only at hn et
          subst et
          have ha := (hat j).2
          have hold := h2 j
          dsimp only at ha hold
          rw [ht] at ha
          cases q : (procs j).phase with
          | done r' =>
            rw [q] at hold hr
            cases hr
            exact hold
          | reading r' =>
            rw [q] at ha
            cases ha
            exact absurd rfl hn
          | _ => rw [q] at hr; cases hr
      rotate_left
      · dsimp only
        by_cases hij : i = j
        · subst hij; rw [setProc_self]; trivial
        · rw [setProc_ne _ _ hij]; exact h2 i
      · intro w b r t e
        rw [e] at hr
        cases hr

/-- **C80**: any number of processes that write, delete and read in any schedule. When no process is in a call, the file is
what it was and no call of `ID3v2_write_tag` has returned, or there are byte sequences, each of which one of the calls may copy to the file (the bytes of its tag and
something else, if it is `ID3v2_write_tag`), such that every byte of the file is the one at the same position of one of them
or a zero; the file is not longer than the longest; and as far as one of them reaches there are no gaps. -/
theorem unlocked_bytes [Platform] (contents : Bytes) (calls : Nat → List FileCall) (s : PState)
    (h : PSteps (.init contents calls) s) (hi : ∀ i, (s.procs i).phase = .idle) :
    (s.dest = contents ∧ ∀ e ∈ s.log, e.call ≠ .read → ∀ t, e.result ≠ .ok (some t)) ∨ ∃ outs : List Bytes,
      (∀ o ∈ outs, ∃ i, (∃ tag bytes, .write tag ∈ calls i ∧ BytesOf tag bytes ∧ bytes <+: o) ∨ .delete ∈ calls i) ∧
      (∀ (k : Nat) (x : MByte), s.dest[k]? = some x → x = some 0 ∨ ∃ o ∈ outs, o[k]? = some x) ∧
      (∃ o ∈ outs, s.dest.length ≤ o.length) ∧
      ∃ o ∈ outs, ∀ k : Nat, k < o.length → ∃ x, s.dest[k]? = some x ∧ ∃ o' ∈ outs, o'[k]? = some x := by
  obtain ⟨outs, h1, -, hlog, h3⟩ := patched_run h
  rcases h3 with ⟨h0, h3⟩ | ⟨m1, m2, o, f1, w, f2, f3⟩
  · exact .inl ⟨h3, fun e he hn t et => hlog e he hn t et h0⟩
  · refine .inr ⟨outs, h1, m1, ?_, o, f1, ?_⟩
    · rcases m2 with m2 | m2
      · exact ⟨o, f1, by rw [m2]; exact Nat.zero_le _⟩
      · exact m2
    · rcases f3 with rfl | ⟨j, done', b', r', t', e1, -⟩
      · exact f2
      · rw [hi j] at e1; cases e1

/-- **C80**: any number of processes that write tags (and read) in any schedule. When no process is in a call, the file is
what it was and no call of `ID3v2_write_tag` has returned, or it has at each position that all the tags reach the byte of one of the tags. -/
theorem unlocked_tags_mix [Platform] (contents : Bytes) (calls : Nat → List FileCall) (s : PState)
    (hd : ∀ i, .delete ∉ calls i)
    (h : PSteps (.init contents calls) s) (hi : ∀ i, (s.procs i).phase = .idle) :
    (s.dest = contents ∧ ∀ e ∈ s.log, e.call ≠ .read → ∀ t, e.result ≠ .ok (some t)) ∨
    ∀ k : Nat, (∀ i tag bytes, .write tag ∈ calls i → BytesOf tag bytes → k < bytes.length) →
      ∃ i tag bytes, .write tag ∈ calls i ∧ BytesOf tag bytes ∧ s.dest[k]? = bytes[k]? := by
  rcases unlocked_bytes contents calls s h hi with h | ⟨outs, h1, -, -, o, ho, h4⟩
  · exact .inl h
  · refine .inr fun k hk => ?_
    have pre : ∀ o ∈ outs, ∃ i tag bytes, .write tag ∈ calls i ∧ BytesOf tag bytes ∧ bytes <+: o := by
      intro o ho
      obtain ⟨i, ⟨tag, bytes, h⟩ | h⟩ := h1 o ho
      · exact ⟨i, tag, bytes, h⟩
      · exact absurd h (hd i)
    obtain ⟨i, tag, bytes, a1, a2, a3⟩ := pre o ho
    obtain ⟨x, hx, o', ho', hx'⟩ := h4 k (Nat.lt_of_lt_of_le (hk i tag bytes a1 a2) a3.length_le)
    obtain ⟨i', tag', bytes', b1, b2, ⟨r, rfl⟩⟩ := pre o' ho'
    have hl := hk i' tag' bytes' b1 b2
    rw [List.getElem?_append_left hl] at hx'
    exact ⟨i', tag', bytes', b1, b2, hx.trans hx'.symm⟩

/-! ## The lock is needed -/

theorem psteps_work [Platform] {s0 : PState} {d d' : Bytes} {procs : Nat → Proc} {log : List CallEntry} {i : Nat}
    {p p' : PPhase} {todo : List FileCall} (hi : procs i = ⟨p, todo⟩)
    (h : PSteps s0 ⟨d, procs, log⟩) (hw : CallSteps d p d' p') :
    PSteps s0 ⟨d', setProc procs i ⟨p', todo⟩, log⟩ := by
  induction hw with
  | refl =>
    have : setProc procs i ⟨p, todo⟩ = procs := by
      funext j
      unfold setProc
      split
      · next h => rw [h, hi]
      · rfl
    rw [this]; exact h
  | tail b c q q' _ hst ih =>
    have := PStep.work b c (setProc procs i ⟨q, todo⟩) log i q' (by rw [setProc_self]; exact hst)
    rw [setProc_setProc, setProc_self] at this
    exact .tail _ _ _ ih this

/-- A changing call up to the moment at which the file is empty. -/
theorem call_truncates [Platform] (contents : List UInt8) (call : FileCall) (h : 0 < tagLength contents)
    (hc : call = .delete ∨ ∃ tag bytes, call = .write tag ∧ BytesOf tag bytes) :
    ∃ p, CallSteps (ofB contents) call.begin [] p := by
  have hne : call ≠ .read := by rcases hc with rfl | ⟨tag, b, rfl, -⟩ <;> simp
  have hb : call.begin = .header call [] := by cases call <;> first | rfl | exact absurd rfl hne
  obtain ⟨h1, h2⟩ := callsteps_header (ofB contents) call 10 [] List.nil_prefix rfl
  have h3 := CallSteps.tail _ _ _ _ _ _ h1 (.endHeader _ _ _ h2)
  rw [hb]
  have fin : ∀ temp n ret, afterHeaderOf call ((ofB contents).take 10) = .saving temp n ret →
      ∃ p, CallSteps (ofB contents) (.header call []) [] p := by
    intro temp n ret e
    rw [e] at h3
    exact ⟨_, .tail _ _ _ _ _ _ (callsteps_trans h3 (callsteps_saving _ _ _ _ _ rfl)) (.truncate _ _ _)⟩
  rcases hc with rfl | ⟨tag, b, rfl, f, t, hb, -⟩
  · obtain ⟨r, e, e2, -⟩ := read_header_spec contents
    cases r with
    | none => have := e2 rfl; omega
    | some hd =>
      refine fin [] (u32 (hd.tag_size + 10)) none ?_
      unfold afterHeaderOf
      dsimp only
      rw [header_take, e]
  · obtain ⟨n, b', e⟩ := prepare_ok hb (contents.take 10)
    rw [show ofB (contents.take 10) = (ofB contents).take 10 by simp [ofB]] at e
    refine fin b' n.toNat (some t) ?_
    unfold afterHeaderOf
    dsimp only
    rw [e]

/-- **C80**: the lock is needed. For every file with a tag, and every call that changes it, there is a schedule in which a
process that reads at the same time looks at uninitialised memory. -/
theorem lock_needed [Platform] (contents : List UInt8) (call : FileCall) (h : 0 < tagLength contents)
    (hc : call = .delete ∨ ∃ tag bytes, call = .write tag ∧ BytesOf tag bytes) :
    ∃ s, PSteps (.init (ofB contents) fun i => if i = 0 then [call] else if i = 1 then [.read] else []) s ∧
      ∃ e ∈ s.log, e.call = .read ∧ e.result = .ub .uninit := by
  obtain ⟨r, h1, h2, h3⟩ := read_header_spec contents
  cases r with
  | none => have := h2 rfl; omega
  | some hd =>
    obtain ⟨h4, h5⟩ := h3 hd rfl
    have hb : afterHeader ((ofB contents).take 10) = .body (tagLength contents : Nat) [] := by
      unfold ID3v2_read_tag_header at h1
      dsimp only at h1
      unfold afterHeader
      split at h1
      · cases h1
      next hl =>
        rw [if_neg hl, h1]
        dsimp only
        rw [show (hd.tag_size : Int) + 10 = (tagLength contents : Nat) by omega, u32_nat (by omega), toInt32_nat (by omega)]
    obtain ⟨g, rfl, r1, r2⟩ := rsteps_header (ofB contents) _ 10 [] List.nil_prefix rfl (.refl _)
    have r3 := RSteps.tail _ _ _ r1 (.endHeader _ r2)
    rw [hb] at r3
    obtain ⟨p, ht⟩ := call_truncates contents call h hc
    -- the reader reads the header
    have q1 := PSteps.tail _ _ _ (.refl (.init (ofB contents) fun i => if i = 0 then [call] else if i = 1 then [.read] else []))
      (.start _ _ _ 1 .read [] rfl)
    have q2 := psteps_work (setProc_self _ _ _) q1 (callsteps_reading r3)
    rw [setProc_setProc] at q2
    -- the other process truncates the file
    have q3 := PSteps.tail _ _ _ q2 (.start _ _ _ 0 call [] (by rw [setProc_ne _ _ (by decide)]; rfl))
    have q4 := psteps_work (setProc_self _ _ _) q3 ht
    rw [setProc_setProc] at q4
    -- the reader goes on
    have q5 := psteps_work (i := 1) (p := .reading (.body (tagLength contents : Nat) [])) (todo := [.read])
      (by rw [setProc_ne _ _ (by decide), setProc_self]) q4
      (.tail _ _ _ _ _ _ (.refl _ _) (.reading _ _ _ (.endBody _ [] (.inr (Nat.zero_le _)))))
    have q6 := PSteps.tail _ _ _ q5 (.finish _ _ _ 1 .read [] _ (by rw [setProc_self]; rfl) (by rw [setProc_self]))
    refine ⟨_, q6, _, List.mem_append_right _ (List.mem_singleton.mpr rfl), rfl, ?_⟩
    exact from_buffer_none _ (by omega)

/-! ## Concrete cases -/

/-- One process writes a tag with four frames, another one reads it. -/
example : ∃ (tag tag' t : Tag) (s : PState), (∃ b, @BytesOf strict tag (ofB b)) ∧
    @Guarded strict (.init (ofB [1, 2, 3]) fun i => if i = 0 then [.write tag] else if i = 1 then [.read] else []) s ∧
    s.log = [⟨0, .write tag, .ok (some tag')⟩, ⟨1, .read, .ok (some t)⟩] ∧ t.frames.length = 4 ∧
    (∀ i, ¬ Changing (s.procs i)) := by
  letI := strict
  obtain ⟨file, tag', t, h1, h3, h4, -⟩ := write_then_read_partial [1, 2, 3] 0 0 sampleFrames 5 0 (by decide)
    (by decide) (by decide) (by decide) (by decide) (by decide)
  obtain ⟨t0, h0⟩ := write_bytes [] 0 0 sampleFrames 5 0 (by decide) (by decide) (by decide) (by decide)
  obtain ⟨t3, h5⟩ := write_bytes [1, 2, 3] 0 0 sampleFrames 5 0 (by decide) (by decide) (by decide) (by decide)
  obtain ⟨-, -, e, -⟩ := write_effect _ _ _ _ ⟨rfl, Or.inl rfl, by decide⟩ (by decide) h1
  generalize htag : toTag 3 0 0 (framesSize sampleFrames + 5) sampleFrames 0 = tag at h0 h1 h5
  cases (h1.symm.trans h5)
  let calls : Nat → List FileCall := fun i => if i = 0 then [.write tag] else if i = 1 then [.read] else []
  have hx : Exclusive (.init (ofB [1, 2, 3]) calls) := fun i j _ hc => absurd rfl hc.1
  obtain ⟨d, r, e1, e2⟩ := @next_call_ends strict _ _ (.refl _ hx) (fun j => rfl) 0 (.write tag) [] rfl
  have e1' : CallDoes (.write tag) (ofB [1, 2, 3]) d r := e1
  unfold CallDoes at e1'
  dsimp only at e1'
  rw [h1] at e1'
  obtain ⟨e3, rfl⟩ := e1'
  replace e3 := Option.some.inj e3
  subst e3
  have hidle : ∀ j, (setProc (fun i => (⟨.idle, calls i⟩ : Proc)) 0 ⟨.idle, afterResult (.ok (some tag')) []⟩ j).phase = .idle := by
    intro j
    unfold setProc
    split <;> rfl
  obtain ⟨d', r', f1, f2⟩ := @next_call_ends strict _ _ e2 hidle 1 .read [] rfl
  have hr : r' = .ok (some t) := f1.2.trans h3
  clear f1
  subst hr
  have hb : ∃ b, BytesOf tag (ofB b) := ⟨_, _, _, h0, rfl⟩
  refine ⟨tag, tag', t, _, hb, f2, ?_, by rw [h4, e]; rfl, ?_⟩
  · rfl
  · intro i hc
    refine hc.1 ?_
    dsimp only
    unfold setProc
    split
    · rfl
    · exact hidle i

/-- A file with a tag, from which one process deletes the tag while another one reads. -/
example : ∃ s, @PSteps strict (.init (ofB (tagBytes 0 0 sampleFrames 5)) fun i => if i = 0 then [.delete] else if i = 1 then [.read] else []) s ∧
    ∃ e ∈ s.log, e.call = .read ∧ e.result = .ub .uninit :=
  @lock_needed strict _ _ (by decide) (.inl rfl)

end Id3.Props

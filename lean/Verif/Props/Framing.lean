import Verif.Lemmas.FramingServe

/-!
# C43: messages between client and server
-/

namespace Verif

open Framing Spec.Framing

variable {σ V : Type}

private theorem readAll_frames {t : Bytes} (ht : t ≠ []) (cs : List Bytes) (c : Input) (h : Safe t c.collected c.inBuf) (hno : ¬ t <:+: c.collected ++ c.inBuf) :
    Frames t (c.collected ++ c.inBuf ++ cs.flatten) (readAll t c cs).1 ((readAll t c cs).2.collected ++ (readAll t c cs).2.inBuf) := by
  induction cs generalizing c with
  | nil => simp only [readAll, List.flatten_nil, List.append_nil]; exact .rest _ hno
  | cons d cs ih =>
    obtain ⟨h1, h2⟩ := read_frames ht h hno d
    have := frames_append h1 (ih _ h2 (frames_rest h1))
    simpa [readAll] using this

private theorem nil_no {t : Bytes} (ht : t ≠ []) : ¬ t <:+: ([] : Bytes) := by
  rintro ⟨p, q, h⟩
  simp at h
  exact ht h.2.1

/-- However the bytes are split into chunks, the messages are the pieces of the stream between the marks, and what follows the last mark is
kept. -/
theorem C43_frames (t : Bytes) (ht : t ≠ []) (cs : List Bytes) :
    Frames t cs.flatten (readAll t ⟨[], []⟩ cs).1 ((readAll t ⟨[], []⟩ cs).2.collected ++ (readAll t ⟨[], []⟩ cs).2.inBuf) := by
  simpa using readAll_frames ht cs ⟨[], []⟩ (safe_nil _ _) (nil_no ht)

/-- The pieces of a stream are determined by the stream. -/
theorem C43_unique {t x r r' : Bytes} {ms ms' : List Bytes} (h : Frames t x ms r) (h' : Frames t x ms' r') : ms = ms' ∧ r = r' :=
  frames_unique h h'

/-- Two ways to split the same bytes give the same messages and the same rest. -/
theorem C43_chunks (t : Bytes) (ht : t ≠ []) (cs cs' : List Bytes) (h : cs.flatten = cs'.flatten) :
    (readAll t ⟨[], []⟩ cs).1 = (readAll t ⟨[], []⟩ cs').1 ∧
      (readAll t ⟨[], []⟩ cs).2.collected ++ (readAll t ⟨[], []⟩ cs).2.inBuf = (readAll t ⟨[], []⟩ cs').2.collected ++ (readAll t ⟨[], []⟩ cs').2.inBuf :=
  C43_unique (C43_frames t ht cs) (h ▸ C43_frames t ht cs')

private theorem frames_encoded (ds : List Bytes) (h : ∀ d ∈ ds, ¬ endMark <:+: d) : Frames endMark (ds.map (· ++ endMark)).flatten ds [] := by
  induction ds with
  | nil => exact .rest _ (nil_no endMark_ne)
  | cons d ds ih =>
    simp only [List.map_cons, List.flatten_cons]
    exact .message d _ ds [] (ends_endMark.2 (h d List.mem_cons_self)) (ih (fun x hx => h x (List.mem_cons_of_mem _ hx)))

/-- Messages that do not contain the mark are received exactly, in order, and nothing remains. -/
theorem C43_request (ds : List Bytes) (h : ∀ d ∈ ds, ¬ endMark <:+: d) (cs : List Bytes) (hcs : cs.flatten = (ds.map (· ++ endMark)).flatten) :
    (readAll endMark ⟨[], []⟩ cs).1 = ds ∧ (readAll endMark ⟨[], []⟩ cs).2 = ⟨[], []⟩ := by
  have h1 := C43_frames endMark endMark_ne cs
  rw [hcs] at h1
  obtain ⟨h2, h3⟩ := frames_unique h1 (frames_encoded ds h)
  refine ⟨h2, ?_⟩
  generalize (readAll endMark ⟨[], []⟩ cs).2 = y at h3 ⊢
  obtain ⟨b, c⟩ := y
  simp at h3
  rw [h3.1, h3.2]

/-- A connection after any events. The messages that came in were answered in order, one answer for each, up to one that closes the connection:
what was sent is the beginning of the answers; if the connection is open, the rest of the answers is in the queue and the state of the server is
that after all messages; if it was closed by such a message, the answers before it were sent completely. -/
theorem C43_replies (codec : Codec V) (proceed : σ → V → σ × V) (accept : Nat → Bytes → Nat) (s : σ) (es : List Event) (ms : List Bytes) (r : Bytes)
    (hf : Frames endMark (received es) ms r) :
    let h := serve codec proceed accept (Handler.new s) es
    h.sent <+: answers codec proceed closeMark endMark s ms ∧
      (∃ done, done <+: ms ∧ h.server = after codec proceed closeMark s done) ∧
      (h.connected = true → h.server = after codec proceed closeMark s ms ∧ (none ∈ h.fifo ↔ closeMark ∈ ms) ∧
        (h.fifo = [] → h.sent = answers codec proceed closeMark endMark s ms)) ∧
      (h.connected = false → Event.closed ∉ es → closeMark ∈ ms ∧ h.sent = answers codec proceed closeMark endMark s ms) := by
  dsimp only
  obtain ⟨ms', r', hi⟩ := conn_serve (accept := accept) es (conn_new codec proceed s)
  have := hi.frames
  rw [List.nil_append] at this
  obtain ⟨rfl, rfl⟩ := frames_unique hf this
  refine ⟨hi.sent, hi.state, ?_, ?_⟩
  · intro hc
    obtain ⟨_, _, h3, h4, h5⟩ := hi.opened hc
    refine ⟨h5, h4, fun h0 => ?_⟩
    rw [← h3, h0]
    simp [pending]
  · intro hc hn
    rcases hi.shut hc with h1 | h1
    · rcases h1 with h1 | h1
      · exact h1.elim
      · exact absurd h1 hn
    · exact h1

/-- If the socket takes at least one byte whenever it can be written, then the queue becomes empty: the answers are sent after finitely many
events, and the connection is then open or was closed. -/
theorem C43_drain (codec : Codec V) (proceed : σ → V → σ × V) (accept : Nat → Bytes → Nat) (ha : ∀ n d, d ≠ [] → 0 < accept n d) (s : σ) (es : List Event)
    (hn : Event.closed ∉ es) (ms : List Bytes) (r : Bytes) (hf : Frames endMark (received es) ms r) :
    ∃ n, (serve codec proceed accept (Handler.new s) (es ++ List.replicate n .writable)).sent = answers codec proceed closeMark endMark s ms := by
  refine ⟨work (serve codec proceed accept (Handler.new s) es).fifo, ?_⟩
  generalize hN : work (serve codec proceed accept (Handler.new s) es).fifo = n
  have hr : ∀ n, received (List.replicate n .writable) = [] := by
    intro n; induction n with
    | zero => rfl
    | succ n ih => rw [List.replicate_succ, received, ih]
  have hra : ∀ a b, received (a ++ b) = received a ++ received b := by
    intro a b
    induction a with
    | nil => rfl
    | cons e a ih => cases e <;> simp [received, ih]
  have h1 := C43_replies codec proceed accept s (es ++ List.replicate n .writable) ms r (by rw [hra, hr, List.append_nil]; exact hf)
  have h2 := drain (codec := codec) (proceed := proceed) ha n (serve codec proceed accept (Handler.new s) es) (by omega)
  have e : serve codec proceed accept (serve codec proceed accept (Handler.new s) es) (List.replicate n .writable) =
      serve codec proceed accept (Handler.new s) (es ++ List.replicate n .writable) := by
    unfold serve; rw [List.foldl_append]
  rw [e] at h2
  dsimp only at h1
  obtain ⟨_, _, h3, h4⟩ := h1
  rcases h2 with h2 | h2
  · exact (h4 h2 (by simp [hn])).2
  · cases hc : (serve codec proceed accept (Handler.new s) (es ++ List.replicate n .writable)).connected with
    | false => exact (h4 hc (by simp [hn])).2
    | true => exact (h3 hc).2.2 h2

/-- The client reads exactly one answer, however it is split into chunks, and what is given to the deserializer is the answer, with or without
the mark. -/
theorem C43_reply (d : Bytes) (hd : ¬ endMark <:+: d) (cs more : List Bytes) (hne : ∀ c ∈ cs, c ≠ []) (hcs : cs.flatten = d ++ endMark) :
    receive [] (cs ++ more) = .message d more ∨ receive [] (cs ++ more) = .message (d ++ endMark) more := by
  refine receive_message (ends_endMark.2 hd) cs more [] hne (by simpa using hcs) ?_
  intro h
  subst h
  simp at hcs
  exact absurd hcs.2 endMark_ne

/-- If the connection is closed before the mark came, then the client gets an error and never a part of an answer. -/
theorem C43_reset (d : Bytes) (cs : List Bytes) (hne : ∀ c ∈ cs, c ≠ []) (hcs : cs.flatten <+: d) (hd : ¬ endMark <:+: d) (more : List Bytes) :
    receive [] (cs ++ [] :: more) = .reset := by
  have key : ∀ (cs : List Bytes) (m : Bytes), (∀ c ∈ cs, c ≠ []) → m ++ cs.flatten <+: d → receive m (cs ++ [] :: more) = .reset := by
    intro cs
    induction cs with
    | nil =>
      intro m _ hp
      have hnc : complete m ≠ true := fun hc => hd ((complete_infix hc).trans (by simpa using hp.isInfix))
      rw [List.nil_append]
      unfold receive
      rw [if_neg hnc, if_pos rfl]
    | cons c cs ih =>
      intro m hne hp
      have hm : m <+: d := (List.prefix_append _ _).trans hp
      have hnc : complete m ≠ true := fun hc => hd ((complete_infix hc).trans hm.isInfix)
      rw [List.cons_append]
      unfold receive
      rw [if_neg hnc, if_neg (hne c List.mem_cons_self)]
      rw [List.flatten_cons, ← List.append_assoc] at hp
      have hce : c ≠ endMark := by
        rintro rfl
        have hi : endMark <:+: m ++ endMark ++ cs.flatten := ⟨m, cs.flatten, rfl⟩
        exact hd (hi.trans hp.isInfix)
      rw [if_neg hce]
      exact ih (m ++ c) (fun x hx => hne x (List.mem_cons_of_mem _ hx)) hp
  exact key cs [] hne (by simpa using hcs)

private theorem answers_encoded {codec : Codec V} {proceed : σ → V → σ × V} (hl : Lawful codec endMark) (vs : List V) (s : σ)
    (hv : ∀ v ∈ vs, Clean codec closeMark endMark v) (hr : ∀ v ∈ (results proceed s vs).1, Clean codec closeMark endMark v) :
    answers codec proceed closeMark endMark s (vs.map (fun v => (codec.dumps v).getD [])) = encoded codec endMark (results proceed s vs).1 ∧
      after codec proceed closeMark s (vs.map (fun v => (codec.dumps v).getD [])) = (results proceed s vs).2 := by
  induction vs generalizing s with
  | nil => exact ⟨rfl, rfl⟩
  | cons v vs ih =>
    obtain ⟨d, h1, h2, h3⟩ := hv v List.mem_cons_self
    obtain ⟨e, g1, g2, g3⟩ := hr (proceed s v).2 (by simp [results])
    obtain ⟨i1, i2⟩ := ih (proceed s v).1 (fun x hx => hv x (List.mem_cons_of_mem _ hx)) (fun x hx => hr x (by simp [results, hx]))
    have ha : answer codec proceed s d = ((proceed s v).1, e) := by
      unfold answer
      rw [hl.exact v d h1]
      simp [g1]
    constructor
    · simp only [List.map_cons, answers, h1, Option.getD_some]
      rw [if_neg h3, ha]
      dsimp only
      rw [i1]
      simp [encoded, results, g1]
    · simp only [List.map_cons, h1, Option.getD_some, after, List.foldl_cons]
      rw [if_neg h3, ha]
      exact i2

/-- Requests and results, from end to end. A client sends requests over a connection; the bytes arrive at the server in any chunks and are sent
in any pieces. Then (as soon as the queue is empty) the bytes sent are the encoded results, in the order of the requests, and the server is in
the state after these requests; and for each of the results, if its bytes come at the client in any chunks, the client gets the result. -/
theorem C43_exchange (codec : Codec V) (hl : Lawful codec endMark) (proceed : σ → V → σ × V) (accept : Nat → Bytes → Nat) (s : σ) (vs : List V)
    (hv : ∀ v ∈ vs, Clean codec closeMark endMark v) (hr : ∀ v ∈ (results proceed s vs).1, Clean codec closeMark endMark v)
    (es : List Event) (hes : received es = encoded codec endMark vs) (hn : Event.closed ∉ es) :
    let h := serve codec proceed accept (Handler.new s) es
    h.connected = true ∧ h.server = (results proceed s vs).2 ∧ (h.fifo = [] → h.sent = encoded codec endMark (results proceed s vs).1) ∧
      ∀ v ∈ (results proceed s vs).1, ∀ cs more : List Bytes, (∀ c ∈ cs, c ≠ []) → cs.flatten = encoded codec endMark [v] →
        ∃ msg, receive [] (cs ++ more) = .message msg more ∧ codec.loads msg = some v := by
  dsimp only
  have hf : Frames endMark (received es) (vs.map (fun v => (codec.dumps v).getD [])) [] := by
    have := frames_encoded (vs.map (fun v => (codec.dumps v).getD [])) (by
      intro d hd
      obtain ⟨v, hvm, rfl⟩ := List.mem_map.1 hd
      obtain ⟨d, h1, h2, _⟩ := hv v hvm
      rw [h1]; exact h2)
    rw [hes]
    simpa [encoded, Function.comp_def] using this
  have hno : closeMark ∉ vs.map (fun v => (codec.dumps v).getD []) := by
    intro hc
    obtain ⟨v, hvm, he⟩ := List.mem_map.1 hc
    obtain ⟨d, h1, _, h3⟩ := hv v hvm
    rw [h1] at he
    exact h3 he
  obtain ⟨_, _, h3, h4⟩ := C43_replies codec proceed accept s es _ _ hf
  obtain ⟨a1, a2⟩ := answers_encoded (proceed := proceed) hl vs s hv hr
  have hc : (serve codec proceed accept (Handler.new s) es).connected = true := by
    cases hc : (serve codec proceed accept (Handler.new s) es).connected with
    | true => rfl
    | false => exact absurd (h4 hc hn).1 hno
  obtain ⟨k1, _, k3⟩ := h3 hc
  refine ⟨hc, by rw [k1, a2], fun h0 => by rw [k3 h0, a1], ?_⟩
  intro v hvm cs more hne hcs
  obtain ⟨d, g1, g2, _⟩ := hr v hvm
  rw [encoded] at hcs
  simp [g1] at hcs
  rcases C43_reply d g2 cs more hne hcs with h | h
  · exact ⟨d, h, hl.exact v d g1⟩
  · exact ⟨d ++ endMark, h, hl.trailing v d g1⟩

/-- A message that cannot be deserialized is answered by an error, and the messages before and after it are answered as if it had not been sent. -/
theorem C43_garbage (codec : Codec V) (proceed : σ → V → σ × V) (accept : Nat → Bytes → Nat) (s : σ) (es : List Event) (before : List Bytes) (m : Bytes) (ms : List Bytes) (r : Bytes)
    (hf : Frames endMark (received es) (before ++ m :: ms) r) (hb : closeMark ∉ before) (hm : codec.loads m = none) (hc : m ≠ closeMark) :
    let h := serve codec proceed accept (Handler.new s) es
    h.connected = true → h.fifo = [] →
      h.sent = answers codec proceed closeMark endMark s before ++ codec.loadError ++ endMark ++ answers codec proceed closeMark endMark (after codec proceed closeMark s before) ms ∧
        h.server = after codec proceed closeMark s (before ++ ms) := by
  dsimp only
  intro hcon h0
  obtain ⟨_, _, h3, _⟩ := C43_replies codec proceed accept s es _ _ hf
  obtain ⟨h4, _, h5⟩ := h3 hcon
  have ha : ∀ s, answer codec proceed s m = (s, codec.loadError) := by intro s; unfold answer; rw [hm]
  constructor
  · rw [h5 h0, answers_append, if_neg hb, answers, if_neg hc, ha]
    simp [List.append_assoc]
  · rw [h4]
    simp only [after, List.foldl_append, List.foldl_cons]
    rw [if_neg hc, ha]

/-- The marks are not escaped: a request whose encoding contains the mark arrives as two messages. -/
theorem C43_refuted_mark : ∃ d : Bytes, ∀ cs : List Bytes, cs.flatten = d ++ endMark → (readAll endMark ⟨[], []⟩ cs).1 ≠ [d] := by
  refine ⟨ascii "a<F2B_END_COMMAND>b", ?_⟩
  intro cs hcs
  have h1 := C43_frames endMark endMark_ne cs
  have h2 : Frames endMark (ascii "a<F2B_END_COMMAND>b" ++ endMark) [ascii "a", ascii "b"] [] := by
    have := frames_encoded [ascii "a", ascii "b"] (by
      intro d hd hi
      have hl := hi.length_le
      have : ∀ d ∈ [ascii "a", ascii "b"], d.length < endMark.length := by decide
      have := this d hd
      omega)
    exact this
  rw [hcs] at h1
  rw [(frames_unique h1 h2).1]
  decide

/-! ## Examples -/

namespace FramingExamples

/-- numbers as one byte; the state is the sum -/
def codec : Codec Nat where
  loads := fun b => match b with
    | 120 :: n :: _ => some n.toNat
    | _ => none
  dumps := fun n => if n < 256 then some [120, UInt8.ofNat n] else none
  loadError := ascii "E"
  dumpError := ascii "F"

def proceed (s v : Nat) : Nat × Nat := (s + v, s + v)

/-- the socket takes 7 bytes at once -/
def accept (_ : Nat) (_ : Bytes) : Nat := 7

-- a mark split over three chunks, a part of a mark that is none, and two messages in one chunk
example : readAll endMark ⟨[], []⟩ [ascii "one<F2B", ascii "_END_COM", ascii "MAND>tw<F2B_o<F2B_END_COMMAND>three<F2B_END_COMMAND><F2"] =
    ([ascii "one", ascii "tw<F2B_o", ascii "three"], ⟨ascii "<F2", []⟩) := by decide +kernel

-- two requests and garbage
example :
    let h := serve codec proceed accept (Handler.new 1)
      ([.data ([120, 4] ++ ascii "<F2B_E"), .writable, .data (ascii "ND_COMMAND>garbage<F2B_END_COMMAND>" ++ [120, 5] ++ endMark)] ++ List.replicate 9 .writable)
    h.sent = [120, 5] ++ endMark ++ ascii "E" ++ endMark ++ [120, 10] ++ endMark ∧ h.server = 10 ∧ h.connected = true ∧ h.fifo = [] := by decide +kernel

-- the closing message: the answer is sent completely, then the connection is closed
example :
    let h := serve codec proceed accept (Handler.new 1) ([.data ([120, 4] ++ endMark ++ closeMark ++ endMark ++ [120, 5] ++ endMark)] ++ List.replicate 9 .writable)
    h.sent = [120, 5] ++ endMark ∧ h.server = 10 ∧ h.connected = false := by decide +kernel

-- the client: the mark in a chunk of its own, split, and the connection closed
example : receive [] [[120], [5], endMark] = .message [120, 5] [] := by decide +kernel
example : receive [] [[120, 5] ++ ascii "<F2B_END_COM", ascii "MAND>", [1, 2]] = .message ([120, 5] ++ endMark) [[1, 2]] := by decide +kernel
example : receive [] [[120, 5], ascii "<F2B_END_COM", []] = .reset := by decide +kernel

-- the hypotheses of the theorem on exchanges hold for all small numbers
example : Lawful codec endMark where
  exact := by
    intro v d h
    simp only [codec] at h ⊢
    split at h
    · cases h
      simp only [UInt8.toNat_ofNat', Option.some.injEq]
      omega
    · cases h
  trailing := by
    intro v d h
    simp only [codec] at h ⊢
    split at h
    · cases h
      simp only [List.cons_append, UInt8.toNat_ofNat', Option.some.injEq]
      omega
    · cases h

example : ∀ v < 200, Clean codec closeMark endMark v := by
  intro v hv
  refine ⟨[120, UInt8.ofNat v], by simp [codec]; omega, ?_, ?_⟩
  · intro h
    have := h.length_le
    have e : endMark.length = 17 := by decide
    rw [e] at this
    simp at this
  · intro h
    have := congrArg List.length h
    have e : closeMark.length = 19 := by decide
    rw [e] at this
    simp at this

-- C43_frames is about any mark
example : readAll (ascii "aab") ⟨[], []⟩ [ascii "xaa", ascii "ab", ascii "ya"] = ([ascii "xa"], ⟨ascii "a", ascii "y"⟩) := by decide +kernel

end FramingExamples

end Verif

import Verif.Model.Framing

/-!
# Spec: messages in a stream of bytes
-/

namespace Verif.Spec.Framing

open Verif.Framing (Bytes Codec Event)

/-- `m` ends at the first occurrence of `t` in `m ++ t`. -/
def Ends (t m : Bytes) : Prop := ∀ p q, m ++ t = p ++ t ++ q → q = []

/-- A stream consists of messages, each followed by the mark `t`, and a rest. -/
inductive Frames (t : Bytes) : Bytes → List Bytes → Bytes → Prop
  | rest (r : Bytes) : ¬ t <:+: r → Frames t r [] r
  | message (m b : Bytes) (ms : List Bytes) (r : Bytes) : Ends t m → Frames t b ms r → Frames t (m ++ t ++ b) (m :: ms) r

/-- The answer to a message, and the new state of the server. -/
def answer {σ V : Type} (codec : Codec V) (proceed : σ → V → σ × V) (s : σ) (m : Bytes) : σ × Bytes :=
  match codec.loads m with
  | none => (s, codec.loadError)
  | some v => ((proceed s v).1, (codec.dumps (proceed s v).2).getD codec.dumpError)

/-- What is sent for messages: the answers, each followed by the mark, up to a message that closes the connection. -/
def answers {σ V : Type} (codec : Codec V) (proceed : σ → V → σ × V) (close mark : Bytes) : σ → List Bytes → Bytes
  | _, [] => []
  | s, m :: ms => if m = close then [] else (answer codec proceed s m).2 ++ mark ++ answers codec proceed close mark (answer codec proceed s m).1 ms

/-- The state of the server after messages. -/
def after {σ V : Type} (codec : Codec V) (proceed : σ → V → σ × V) (close : Bytes) (s : σ) (ms : List Bytes) : σ :=
  ms.foldl (fun s m => if m = close then s else (answer codec proceed s m).1) s

/-- The bytes of the chunks that came in. -/
def received : List Event → Bytes
  | [] => []
  | .data c :: es => c ++ received es
  | .closed :: es => received es
  | .writable :: es => received es

/-- Results of requests in order, and the final state. -/
def results {σ V : Type} (proceed : σ → V → σ × V) : σ → List V → List V × σ
  | s, [] => ([], s)
  | s, v :: vs => ((proceed s v).2 :: (results proceed (proceed s v).1 vs).1, (results proceed (proceed s v).1 vs).2)

/-- The encoding of a value does not contain the mark and is not the closing message. -/
def Clean {V : Type} (codec : Codec V) (close mark : Bytes) (v : V) : Prop :=
  ∃ d, codec.dumps v = some d ∧ ¬ mark <:+: d ∧ d ≠ close

/-- The encoded values, each followed by the mark. -/
def encoded {V : Type} (codec : Codec V) (mark : Bytes) (vs : List V) : Bytes := (vs.map (fun v => (codec.dumps v).getD [] ++ mark)).flatten

/-- Laws of the serialization: what was written can be read, even if a mark follows. -/
structure Lawful {V : Type} (codec : Codec V) (mark : Bytes) : Prop where
  exact : ∀ v d, codec.dumps v = some d → codec.loads d = some v
  trailing : ∀ v d, codec.dumps v = some d → codec.loads (d ++ mark) = some v

end Verif.Spec.Framing

import Verif.Model.XsltOutput
set_option autoImplicit false
/-!
# Messages: include/XSLT/impl/xslt_message.hpp, `sink`, `redirectToMessageSink` and `revertFromMessageSink` of
xslt_execution_context.hpp, and the warnings of xslt_output.hpp

The output of the result and that of messages are each an `Output` (Model/XsltOutput).  Both give warnings as text to
the output of messages; `warning_sink_` is null where nothing has set it.  Not modelled: variables that have messages
in their content, whose output is a copy.
-/
namespace Verif.XsltMessage
open Verif.Xslt (Str QN Out)

mutual
/-- The instructions of Model/XsltOutput, and messages. -/
inductive MInstr where
  | text (s : Str)
  | element (p l u : Str) (body : MInstrs)
  | attr (p l u : Str) (body : MInstrs)
  | copyAttribute (u l : Str) (q : QN) (v : Str)
  | comment (body : MInstrs)
  | pi (target : Str) (body : MInstrs)
  | message (terminate : Bool) (body : MInstrs)
/-- A sequence of instructions. -/
inductive MInstrs where
  | nil
  | cons (i : MInstr) (rest : MInstrs)
end

/-- `sink_`, `message_sink_` and `to_msg_` of the ExecutionContext, lines 114-116; whether `warning_sink_` is set; and, for
statements only, how many warnings there were. -/
structure S where
  main : Out
  msg : Out
  toMsg : Nat := 0
  hasSink : Bool := true
  warnings : Nat := 0
  deriving DecidableEq

/-- What a call comes to: it returns, it throws, it uses a null pointer. -/
inductive Status where
  | on
  | thrown
  | undefined
  deriving DecidableEq, Repr

/-- `sink`, xslt_execution_context.hpp lines 70-73. -/
def S.sink (s : S) : Out := if s.toMsg = 0 then s.main else s.msg

/-- The output that is written to is now this. -/
def S.put (s : S) (o : Out) : S := if s.toMsg = 0 then { s with main := o } else { s with msg := o }

def notText : Str := "WARNING: non-text ignored when creating processing instruction, comment or attribute".toList
def noElement : Str := "WARNING: Cannot write attribute, no open element".toList

/-- `warning`, xslt_output.hpp lines 372-376. -/
def warn (w : Str) (s : S) : S × Status :=
  if s.hasSink then
    ({ s with msg := Xslt.characters (Xslt.characters s.msg w) ['\n'], warnings := s.warnings + 1 }, .on)
  else (s, .undefined)

/-- The next statement, if there was no exception. -/
def andThen (r : S × Status) (f : S → S × Status) : S × Status :=
  match r.2 with
  | .on => f r.1
  | _ => r

/-- `is_buffering`, lines 295-301, where it is called: a warning if there is buffering. -/
def warnIfBuffering (s : S) : S × Status := if s.sink.buffering ≠ 0 then warn notText s else (s, .on)

/-- `start_attribute`, lines 119-142: a warning before the buffering is counted up, or after it if there is no
element. -/
def startAttribute (p l u : Str) (s : S) : S × Status :=
  if s.sink.buffering ≠ 0 then
    andThen (warn notText s) fun s => (s.put (Xslt.startAttribute s.sink p l u), .on)
  else
    let s' := s.put (Xslt.startAttribute s.sink p l u)
    if s.sink.pendingElement = false then warn noElement s' else (s', .on)

/-- `add_attribute`, lines 157-169. -/
def addAttribute (u l : Str) (q : QN) (v : Str) (s : S) : S × Status :=
  if s.sink.pendingElement = false then warn noElement s else (s.put (Xslt.addAttribute s.sink u l q v), .on)

mutual
/-- One instruction.  `Message::execute`, xslt_message.hpp lines 25-32, with its frame, lines 37-49, which is left by
exceptions too, and xslt_execution_context.hpp lines 74-79 without the flush of the stream; the others as in Model/XsltOutput. -/
def exec : MInstr → S → S × Status
  | .text t, s => (s.put (Xslt.characters s.sink t), .on)
  | .element p l u body, s =>
    if s.sink.buffering ≠ 0 then warn notText s
    else
      andThen (execs body (s.put (Xslt.startElement s.sink p l u).2)) fun s =>
        (s.put (Xslt.endElement s.sink l u), .on)
  | .attr p l u body, s =>
    andThen (startAttribute p l u s) fun s =>
      andThen (execs body s) fun s => (s.put (Xslt.endAttribute s.sink), .on)
  | .copyAttribute u l q v, s => addAttribute u l q v s
  | .comment body, s =>
    andThen (warnIfBuffering s) fun s =>
      andThen (execs body (s.put (Xslt.startComment s.sink))) fun s => (s.put (Xslt.endComment s.sink), .on)
  | .pi t body, s =>
    andThen (warnIfBuffering s) fun s =>
      andThen (execs body (s.put (Xslt.startPI s.sink t))) fun s => (s.put (Xslt.endPI s.sink), .on)
  | .message terminate body, s =>
    let r := andThen (execs body { s with toMsg := s.toMsg + 1 }) fun s => (s, if terminate then .thrown else .on)
    ({ r.1 with toMsg := r.1.toMsg - 1 }, r.2)
/-- Instructions in order. -/
def execs : MInstrs → S → S × Status
  | .nil, s => (s, .on)
  | .cons i rest, s => andThen (exec i s) fun s => execs rest s
end

/-- A transformation: the first constructor of ExecutionContext, lines 41-52, which sets both warning sinks. -/
def start (cdata : List (Str × Str)) : S := { main := { cdata := cdata }, msg := {} }

/-- The context of the content of a variable: the second constructor, lines 54-66, which sets none. -/
def startVariable : S := { main := { wantDecs := false }, msg := {}, hasSink := false }

end Verif.XsltMessage

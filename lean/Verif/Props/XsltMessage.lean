import Verif.Lemmas.XsltMessage4
set_option autoImplicit false
/-!
# C102: messages do not change the result, and are written in order
-/
namespace Verif.Props.XsltMessage
open Verif.Xslt (Str QN Out Event)
open Verif.XsltMessage
open Verif.Spec.XsltMessage

/-- The instructions of these. -/
def seq : List MInstr → MInstrs
  | [] => .nil
  | i :: l => .cons i (seq l)

/-- An attribute after a message, in an element; a message in the message. -/
def sample : MInstrs :=
  seq [.element [] "a".toList []
    (seq [.message false (seq [.text "one".toList, .message false (seq [.element [] "m".toList [] .nil])]),
      .attr [] "x".toList [] (seq [.message false (seq [.text "two".toList]), .text "v".toList]),
      .text "t".toList])]

theorem fine_start (is : MInstrs) (cdata : List (Str × Str)) (hr : Proper (withouts is)) (hm : Proper (messagess is)) :
    Fine (start cdata) (execs is (start cdata)) :=
  proper_execs is (start cdata) ⟨fun h0 => absurd rfl h0, fun _ =>
    ⟨⟨.tree, ⟨rfl, rfl, rfl, rfl⟩, hm⟩, .tree, ⟨rfl, rfl, rfl, rfl⟩, hr⟩⟩

/-- Messages do not change the result: without one that terminates, a transformation ends, and its result is that of
the same instructions without the messages.  Missing: what is given for a context without a warning sink
(`C102_violated_variable`). -/
theorem C102_result_partial (is : MInstrs) (cdata : List (Str × Str)) (h : terminatess is = false) :
    (execs is (start cdata)).2 = .on ∧ (execs is (start cdata)).1.toMsg = 0 ∧
    (execs is (start cdata)).1.main.out = Xslt.transform cdata (withouts is) := by
  have hf := frame_execs is (start cdata)
  have ho := hf.on rfl h
  refine ⟨ho, hf.toMsg, ?_⟩
  rw [main_execs is (start cdata) rfl ho]
  rfl

example : terminatess sample = false := by decide +kernel

example : (execs sample (start [])).1.main.out =
    [.startElement ([], "a".toList) [] [⟨[], "x".toList, ([], "x".toList), "v".toList⟩], .characters "t".toList,
      .endElement ([], "a".toList) []] := by decide +kernel

/-- If all instructions of the result and of messages stand where they may, nothing is warned of, and what is written as
messages is the content of the messages, in order and as it would be written as a result.  Missing: where warnings go (`C102_violated_comment`, `C102_violated_lost`). -/
theorem C102_messages_partial (is : MInstrs) (cdata : List (Str × Str)) (h : terminatess is = false)
    (hr : Proper (withouts is)) (hm : Proper (messagess is)) :
    (execs is (start cdata)).1.warnings = 0 ∧
    (execs is (start cdata)).1.msg.out = Xslt.transform [] (messagess is) := by
  have ho := (frame_execs is (start cdata)).on rfl h
  have hw := (fine_start is cdata hr hm).1
  refine ⟨hw, ?_⟩
  rw [(says_execs is (start cdata) ho hw).2 rfl]
  rfl

example : Proper (withouts sample) ∧ Proper (messagess sample) ∧
    (execs sample (start [])).1.msg.out = [.characters "one".toList, .startElement ([], "m".toList) [] [],
      .endElement ([], "m".toList) [], .characters "two".toList] := by
  refine ⟨?_, ?_, ?_⟩ <;> decide +kernel

/-- Everything that stands where it may not is warned of, in results and in messages, if no attributes are copied.
Missing: copied attributes (`C102_violated_copied`). -/
theorem C102_warned_partial (is : MInstrs) (cdata : List (Str × Str)) (h : terminatess is = false)
    (hk : copiess is = false) :
    (execs is (start cdata)).1.warnings = 0 ↔ Proper (withouts is) ∧ Proper (messagess is) := by
  have ho := (frame_execs is (start cdata)).on rfl h
  constructor
  · intro hw
    have := (given_execs is (start cdata) hk ho hw).2 rfl .tree .tree ⟨rfl, rfl, rfl, rfl⟩ ⟨rfl, rfl, rfl, rfl⟩
    exact ⟨this.2, this.1⟩
  · rintro ⟨hr, hm⟩
    exact (fine_start is cdata hr hm).1

example : terminatess sample = false ∧ copiess sample = false := by decide +kernel

/-- An attribute behind text, in a message. -/
def late : MInstrs :=
  seq [.message false (seq [.element [] "a".toList [] (seq [.text "t".toList, .attr [] "x".toList [] .nil])])]

example : terminatess late = false ∧ copiess late = false ∧ ¬ Proper (messagess late) ∧
    (execs late (start [])).1.warnings = 1 := by
  refine ⟨?_, ?_, ?_, ?_⟩ <;> decide +kernel

/-- The warnings of a result without messages are written whole, each on a line of its own, and nothing else is. -/
theorem C102_lines (is : MInstrs) (cdata : List (Str × Str)) (h : silents is = true) :
    ∃ ws : List Str, ws.length = (execs is (start cdata)).1.warnings ∧
      (∀ w ∈ ws, w = "WARNING: Cannot write attribute, no open element".toList ∨
        w = "WARNING: non-text ignored when creating processing instruction, comment or attribute".toList) ∧
      (execs is (start cdata)).1.msg.out = ws.flatMap fun w => [.characters w, .characters ['\n']] := by
  obtain ⟨_, _, _, _, ws, h1, h2, h3⟩ :=
    lines_execs is (start cdata) h ⟨rfl, rfl, ⟨rfl, rfl, rfl, rfl⟩, rfl, [], rfl, (fun w hw => by cases hw), rfl⟩
  exact ⟨ws, h1, fun w hw => (h2 w hw).symm, h3⟩

example : silents (seq [.attr [] "x".toList [] .nil, .comment (seq [.comment .nil])]) = true ∧
    (execs (seq [.attr [] "x".toList [] .nil, .comment (seq [.comment .nil])]) (start [])).1.warnings = 2 := by
  constructor <;> decide +kernel

/-- An attribute copied in the content of another is not warned of, and becomes an attribute of the element. -/
theorem C102_violated_copied :
    ¬ Proper (withouts (seq [.element [] "a".toList [] (seq [.attr [] "x".toList [] (seq [.copyAttribute [] "y".toList
      ([], "y".toList) "w".toList, .text "v".toList])])])) ∧
    (execs (seq [.element [] "a".toList [] (seq [.attr [] "x".toList [] (seq [.copyAttribute [] "y".toList
      ([], "y".toList) "w".toList, .text "v".toList])])]) (start [])).1.warnings = 0 ∧
    (execs (seq [.element [] "a".toList [] (seq [.attr [] "x".toList [] (seq [.copyAttribute [] "y".toList
      ([], "y".toList) "w".toList, .text "v".toList])])]) (start [])).1.main.out =
      [.startElement ([], "a".toList) [] [⟨[], "x".toList, ([], "x".toList), "v".toList⟩,
        ⟨[], "y".toList, ([], "y".toList), "w".toList⟩], .endElement ([], "a".toList) []] := by
  refine ⟨?_, ?_, ?_⟩ <;> decide +kernel

/-- Messages that terminate: only they end a transformation; if all instructions stand where they may, one anywhere
does; and the
redirection is undone when it ends so. -/
theorem C102_terminate (is : MInstrs) (cdata : List (Str × Str)) :
    (execs is (start cdata)).1.toMsg = 0 ∧
    ((execs is (start cdata)).2 = .thrown → terminatess is = true) ∧
    (terminatess is = true → Proper (withouts is) → Proper (messagess is) → (execs is (start cdata)).2 = .thrown) := by
  have hf := frame_execs is (start cdata)
  refine ⟨hf.toMsg, hf.thrown, fun ht hr hm => ?_⟩
  have hw := (fine_start is cdata hr hm).1
  have hs := (safe_execs is (start cdata) rfl).2
  match ho : (execs is (start cdata)).2 with
  | .thrown => rfl
  | .undefined => exact absurd ho hs
  | .on =>
    rw [hf.stays ho (Eq.symm hw)] at ht
    cases ht

example : terminatess (seq [.comment (seq [.message true (seq [.text "b".toList])])]) = true ∧
    Proper (withouts (seq [.comment (seq [.message true (seq [.text "b".toList])])])) ∧
    Proper (messagess (seq [.comment (seq [.message true (seq [.text "b".toList])])])) := by
  refine ⟨?_, ?_, ?_⟩ <;> decide +kernel

/-- What comes behind a terminating message is not carried out, and its content is written. -/
theorem C102_stops (is body rest : MInstrs) (s : S) (h0 : (execs is s).2 = .on)
    (hb : (execs body { (execs is s).1 with toMsg := (execs is s).1.toMsg + 1 }).2 = .on) :
    ∀ r, r = andThen (execs is s) (fun s => execs (.cons (.message true body) rest) s) →
      r.2 = .thrown ∧ r.1.main = (execs is s).1.main ∧
      r.1.msg = (execs body { (execs is s).1 with toMsg := (execs is s).1.toMsg + 1 }).1.msg := by
  rintro r rfl
  have hm := (frame_execs body { (execs is s).1 with toMsg := (execs is s).1.toMsg + 1 }).main (by simp)
  have e1 : ∀ (q : S × Status) (f : S → S × Status), q.2 = .on → andThen q f = f q.1 := by
    intro q f h
    unfold andThen
    rw [h]
  have e2 : ∀ (q : S × Status) (f : S → S × Status), q.2 = .thrown → andThen q f = q := by
    intro q f h
    unfold andThen
    rw [h]
  rw [e1 _ _ h0, execs, e2 _ _ (by rw [exec, e1 _ _ hb]; rfl), exec, e1 _ _ hb]
  exact ⟨rfl, hm, rfl⟩

example : (execs (seq [.text "a".toList, .message true (seq [.text "b".toList]), .text "c".toList]) (start [])).2 = .thrown ∧
    (execs (seq [.text "a".toList, .message true (seq [.text "b".toList]), .text "c".toList]) (start [])).1.main.out =
      [.characters "a".toList] ∧
    (execs (seq [.text "a".toList, .message true (seq [.text "b".toList]), .text "c".toList]) (start [])).1.msg.out =
      [.characters "b".toList] := by
  refine ⟨?_, ?_, ?_⟩ <;> decide +kernel

/-- Warnings in a message are written into what is made: a comment gets the text of the warning. -/
theorem C102_violated_comment :
    (execs (seq [.message false (seq [.comment (seq [.text "a".toList, .element [] "b".toList [] .nil])])]) (start [])).1.msg.out =
      [.comment ("a".toList ++ notText ++ ['\n'])] ∧
    Xslt.transform [] (messagess (seq [.message false (seq [.comment (seq [.text "a".toList, .element [] "b".toList [] .nil])])])) =
      [.comment "a".toList] := by
  constructor <;> decide +kernel

/-- Or they are lost: an attribute in a message that is in no element is not warned of, for any content. -/
theorem C102_violated_lost (p l u t : Str) :
    (execs (seq [.message false (seq [.attr p l u (seq [.text t])])]) (start [])).1.msg.out = [] ∧
    (execs (seq [.message false (seq [.attr p l u (seq [.text t])])]) (start [])).1.warnings = 1 := by
  constructor <;> rfl

/-- In the content of a variable a warning goes through a null pointer: for every attribute that is in no element, and
every element in a comment. -/
theorem C102_violated_variable (p l u t : Str) (body : MInstrs) :
    (execs (seq [.attr p l u (seq [.text t])]) startVariable).2 = .undefined ∧
    (execs (seq [.comment (seq [.element p l u body])]) startVariable).2 = .undefined := by
  constructor <;> rfl

/-- Nowhere else: if all instructions stand where they may, there is no call through a null pointer, and the content of a
variable is what it would be in a result. -/
theorem C102_variable_partial (is : MInstrs) (ht : terminatess is = false) (hr : Proper (withouts is))
    (hm : Proper (messagess is)) :
    (execs is startVariable).2 = .on ∧
    (execs is startVariable).1.main = Xslt.execs { wantDecs := false } (withouts is) := by
  have hs := (proper_execs is startVariable ⟨fun h0 => absurd rfl h0, fun _ =>
    ⟨⟨.tree, ⟨rfl, rfl, rfl, rfl⟩, hm⟩, .tree, ⟨rfl, rfl, rfl, rfl⟩, hr⟩⟩).2
  have hf := frame_execs is startVariable
  match ho : (execs is startVariable).2 with
  | .on => exact ⟨rfl, main_execs is startVariable rfl ho⟩
  | .undefined => exact absurd ho hs
  | .thrown =>
    rw [hf.thrown ho] at ht
    cases ht

example : (execs sample startVariable).2 = .on := by decide +kernel

end Verif.Props.XsltMessage

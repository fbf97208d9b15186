import Verif.Model.XsltMessage
set_option autoImplicit false
/-!
# What messages do

The result is as if there were no messages; what is written as messages is their content, one after the other.
-/
namespace Verif.Spec.XsltMessage
open Verif.Xslt (Instr Instrs)
open Verif.XsltMessage (MInstr MInstrs)

/-- One sequence after another. -/
def join : Instrs → Instrs → Instrs
  | .nil, b => b
  | .cons i a, b => .cons i (join a b)

mutual
/-- An instruction without the messages in it. -/
def without : MInstr → Instrs
  | .text t => .cons (.text t) .nil
  | .element p l u body => .cons (.element p l u (withouts body)) .nil
  | .attr p l u body => .cons (.attr p l u (withouts body)) .nil
  | .copyAttribute u l q v => .cons (.copyAttribute u l q v) .nil
  | .comment body => .cons (.comment (withouts body)) .nil
  | .pi t body => .cons (.pi t (withouts body)) .nil
  | .message _ _ => .nil
def withouts : MInstrs → Instrs
  | .nil => .nil
  | .cons i rest => join (without i) (withouts rest)
end

mutual
/-- The content of a message: a message in it is a part of it. -/
def content : MInstr → Instrs
  | .text t => .cons (.text t) .nil
  | .element p l u body => .cons (.element p l u (contents body)) .nil
  | .attr p l u body => .cons (.attr p l u (contents body)) .nil
  | .copyAttribute u l q v => .cons (.copyAttribute u l q v) .nil
  | .comment body => .cons (.comment (contents body)) .nil
  | .pi t body => .cons (.pi t (contents body)) .nil
  | .message _ body => contents body
def contents : MInstrs → Instrs
  | .nil => .nil
  | .cons i rest => join (content i) (contents rest)
end

mutual
/-- The content of all messages of an instruction, in order. -/
def messages : MInstr → Instrs
  | .text _ => .nil
  | .element _ _ _ body => messagess body
  | .attr _ _ _ body => messagess body
  | .copyAttribute _ _ _ _ => .nil
  | .comment body => messagess body
  | .pi _ body => messagess body
  | .message _ body => contents body
def messagess : MInstrs → Instrs
  | .nil => .nil
  | .cons i rest => join (messages i) (messagess rest)
end

mutual
/-- There is a message that ends the transformation. -/
def terminates : MInstr → Bool
  | .text _ => false
  | .element _ _ _ body => terminatess body
  | .attr _ _ _ body => terminatess body
  | .copyAttribute _ _ _ _ => false
  | .comment body => terminatess body
  | .pi _ body => terminatess body
  | .message t body => t || terminatess body
def terminatess : MInstrs → Bool
  | .nil => false
  | .cons i rest => terminates i || terminatess rest
end

/-! Where instructions may stand (XSLT 1.0, sections 7.1.3, 7.3 and 7.4). -/

/-- Where the next instruction stands: in an element that has no children yet, elsewhere in a tree, in the content of
an attribute, comment or processing instruction. -/
inductive Place where
  | first
  | tree
  | text
  deriving DecidableEq, Repr

mutual
/-- The place behind an instruction, if it and all in it stand where they may. -/
def behind (c : Place) : Instr → Option Place
  | .text _ => if c = .text then some .text else some .tree
  | .element _ _ _ body => if c ≠ .text ∧ (behinds .first body).isSome then some .tree else none
  | .attr _ _ _ body => if c = .first ∧ (behinds .text body).isSome then some .first else none
  | .copyAttribute _ _ _ _ => if c = .first then some .first else none
  | .comment body => if c ≠ .text ∧ (behinds .text body).isSome then some .tree else none
  | .pi _ body => if c ≠ .text ∧ (behinds .text body).isSome then some .tree else none
def behinds (c : Place) : Instrs → Option Place
  | .nil => some c
  | .cons i rest =>
    match behind c i with
    | some c' => behinds c' rest
    | none => none
end

/-- All instructions stand where they may. -/
def Proper (is : Instrs) : Prop := (behinds .tree is).isSome = true

instance (is : Instrs) : Decidable (Proper is) := inferInstanceAs (Decidable (_ = true))

mutual
/-- Attributes are copied. -/
def copies : MInstr → Bool
  | .text _ => false
  | .element _ _ _ body => copiess body
  | .attr _ _ _ body => copiess body
  | .copyAttribute _ _ _ _ => true
  | .comment body => copiess body
  | .pi _ body => copiess body
  | .message _ body => copiess body
def copiess : MInstrs → Bool
  | .nil => false
  | .cons i rest => copies i || copiess rest
end

mutual
/-- There are no messages. -/
def silent : MInstr → Bool
  | .text _ => true
  | .element _ _ _ body => silents body
  | .attr _ _ _ body => silents body
  | .copyAttribute _ _ _ _ => true
  | .comment body => silents body
  | .pi _ body => silents body
  | .message _ _ => false
def silents : MInstrs → Bool
  | .nil => true
  | .cons i rest => silent i && silents rest
end

end Verif.Spec.XsltMessage

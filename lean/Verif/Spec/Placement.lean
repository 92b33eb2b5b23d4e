import Verif.Model.Placement

/-! Specification of constraints and placement. -/

namespace Distbench.Spec
open Placement

/-- The text of a signed decimal 64-bit integer, possibly surrounded by white space. -/
def DenotesInt (s : Str) (v : Int) : Prop :=
  ∃ (pre sign ds post : Str), s = pre ++ sign ++ ds ++ post ∧
    (∀ c ∈ pre, Services.isCSpace c) ∧ (∀ c ∈ post, Services.isCSpace c) ∧
    (sign = [] ∨ sign = ['+'] ∨ sign = ['-']) ∧ ds ≠ [] ∧ (∀ c ∈ ds, Services.isCDigit c) ∧
    v = (if sign = ['-'] then -(Services.digitsValue 0 ds : Int) else Services.digitsValue 0 ds) ∧
    InI64 v

/-- One listed string value compares as requested. -/
def StringHolds (r : Relation) (attr listed : Str) : Prop :=
  (r = .equal ∧ attr = listed) ∨ (r = .notEqual ∧ attr ≠ listed)

/-- One listed integer compares as requested (`tmod` is the C remainder, with the sign of the
attribute's value). -/
def IntHolds (r : Relation) (modulus : Int) (attr : Str) (listed : Int) : Prop :=
  ∃ v, DenotesInt attr v ∧
    ((r = .equal ∧ v = listed) ∨ (r = .notEqual ∧ v ≠ listed) ∨
     (r = .moduloEqual ∧ v.tmod modulus = listed) ∨
     (r = .moduloNotEqual ∧ v.tmod modulus ≠ listed))

/-- A node with these attributes satisfies a constraint. -/
def Satisfies (attrs : List Attribute) (c : Constraint) : Prop :=
  ∃ a ∈ attrs, a.name = c.attributeName ∧
    ((∃ s ∈ c.stringValues, StringHolds c.relation a.value s) ∨
     (∃ n ∈ c.int64Values, IntHolds c.relation c.modulus a.value n))

/-- All sets must have a satisfied member. -/
def SatisfiesAll (attrs : List Attribute) (cl : ConstraintList) : Prop :=
  ∀ cs ∈ cl, ∃ c ∈ cs, Satisfies attrs c

/-- The modulus of a modulo constraint is usable. -/
def ModulusOk (c : Constraint) : Prop :=
  (c.relation = .moduloEqual ∨ c.relation = .moduloNotEqual) → c.modulus ≠ 0 ∧ c.modulus ≠ -1

/-- `node` hosts `service` in a placement. -/
def Hosts (m : NodeServiceMap) (node service : Str) : Prop := ∃ ss, (node, ss) ∈ m ∧ service ∈ ss

/-- `service` is listed in the bundle of `node`. -/
def Bundled (p : Problem) (node service : Str) : Prop := ∃ ss, (node, ss) ∈ p.bundles ∧ service ∈ ss

/-- `cl` is the list of constraints meant for `service`: the one given under its own name, or else
one given under a wildcard that matches it. -/
def ConstraintFor (glob : Str → Str → Bool) (p : Problem) (service : Str) (cl : ConstraintList) :
    Prop :=
  ((service, cl) ∈ p.serviceConstraints ∧ '*' ∉ service) ∨
  ((∀ cl', (service, cl') ∉ p.serviceConstraints) ∧
    ∃ pat, (pat, cl) ∈ p.serviceConstraints ∧ '*' ∈ pat ∧ glob pat service)

/-- The inputs have the shape the callers guarantee: maps have distinct keys and instance names are
distinct (and, as service names do not, contain no `*`). -/
structure WellFormed (p : Problem) : Prop where
  services : p.services.Nodup
  nodes : (p.nodes.map (·.1)).Nodup
  bundles : (p.bundles.map (·.1)).Nodup
  constraints : (p.serviceConstraints.map (·.1)).Nodup
  noStar : ∀ s ∈ p.services, '*' ∉ s

end Distbench.Spec

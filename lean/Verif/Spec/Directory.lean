import Verif.Spec.Crypto

/-!
# Specification: a directory of named, localised files

The abstract object an MPQ hash table implements: a log of additions, searched in the order of addition.
Names are compared up to ASCII case and separator.
-/

namespace Spec

/-- The normal form of a name: upper case, backslash separators. -/
def normalise (name : List Nat) : List Nat := name.map upper

/-- One addition: the name as given, its locale (0 is neutral) and the file number. -/
structure Added where
  name : List Nat
  locale : Nat
  file : Nat

/-- A request for locale `want` accepts an entry of locale `have_`: the code treats 0 as "any" on both sides. -/
def acceptsLocale (want have_ : Nat) : Bool := want == 0 || have_ == 0 || have_ == want

/-- Look a name up: the earliest addition with that name (up to case and separator) and an acceptable locale. -/
def lookup (log : List Added) (name : List Nat) (want : Nat) : Option Added :=
  log.find? fun a => normalise a.name == normalise name && acceptsLocale want a.locale

/-- The name is already present under exactly this locale. -/
def present (log : List Added) (name : List Nat) (locale : Nat) : Bool :=
  log.any fun a => normalise a.name == normalise name && a.locale == locale

end Spec

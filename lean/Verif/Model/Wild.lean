import Verif.Model.Prelude

/-!
# Patterns

The dependency `wildmatch` 2.1.0 (`pfp/Cargo.toml:21`), modelled from its documentation: `*` stands for any number of
characters, `?` for one character, any other character for itself.
-/

namespace Pfp

/-- Models `WildMatch::new(pattern).matches(input)` (used in `passwords.rs:434-436` and `450-455`). -/
def wildMatch : Str → Str → Bool
  | [], input => input.isEmpty
  | c :: pattern, input =>
    if c = '*' then (List.range (input.length + 1)).any fun n => wildMatch pattern (input.drop n)
    else
      match input with
      | [] => false
      | d :: input => (c = '?' || c = d) && wildMatch pattern input

end Pfp

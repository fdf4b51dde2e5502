import Verif.Model.Cli

/-!
# Standard input, byte by byte

`prompt_secret_text` reads standard input itself, without the buffering of the standard library: byte by byte, up to the end
of the line.  `Model/Cli.lean` has lines of text instead of bytes; `C84` shows that this is the same.

Simplification: a read error is an end of the input, as in the code (`while let Ok(1)`).
-/

namespace Pfp.Stdin

/-- Models the loop `utils.rs:80-85`: the bytes before the next line feed or before the end of the input, and the bytes
left to be read. -/
def readLine : Bytes → Bytes × Bytes
  | [] => ([], [])
  | byte :: rest => if byte = 10 then ([], rest) else (byte :: (readLine rest).1, (readLine rest).2)

/-- Models `utils.rs:77-93` (`prompt_secret_text` after the prompt): the text entered, and the bytes left to be read. -/
def readText (input : Bytes) : Res Str × Bytes :=
  match fromUtf8 (readLine input).1 with
  | some text => (.ok text, (readLine input).2)
  | none => (.panic, (readLine input).2)

end Pfp.Stdin

import Verif.Model.QrCode
import Verif.Spec.QrCode

/-!
# The QR code in the tests of the repository
-/

namespace Pfp.Tests

/-- The picture expected in `cli/tests/cli/passwords.rs`, lines 519-531. -/
def picture : Str := c!"█▀▀▀▀▀█ █  ▄  █▀▀▀▀▀█
█ ███ █ ▀▄▄▀▀ █ ███ █
█ ▀▀▀ █ ▄▀█ █ █ ▀▀▀ █
▀▀▀▀▀▀▀ █▄█ █ ▀▀▀▀▀▀▀
  ███▄▀ ▀ ▄ ████  ███
 ▄▀▄ ▄▀▀▀▀▀▀▄▄ ▄██▄█ 
▀   ▀ ▀▀█ ▄ ▀▄▀ ▀▄▄ ▄
█▀▀▀▀▀█   ▀▀▀ █▀ ▄█▀ 
█ ███ █ ███▄  ▀█ ▄▄▀ 
█ ▀▀▀ █ ▀▀▄ █▄█▄█ ▄  
▀▀▀▀▀▀▀     ▀ ▀ ▀ ▀▀ 
"

-- It is what the model draws, with the mask chosen among eight.
#guard (Qr.encodeText (c!"asdf")).map Cli.renderQr == some picture

set_option maxRecDepth 100000 in
/-- What is read from the picture is the password stored in that test. -/
example : Spec.Qr.readText picture = some (b!"asdf") := by decide +kernel

end Pfp.Tests

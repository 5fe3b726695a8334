import Verif.Dtmf.LiveCheck

/-!
# The table of sums behind C151: the tones of 697, 770, 852 and 941 Hz
-/

set_option maxRecDepth 100000

namespace Verif.Dtmf.Live

theorem rowsA_ok : (rows.take 4).all rowCheck = true := by decide +kernel

end Verif.Dtmf.Live

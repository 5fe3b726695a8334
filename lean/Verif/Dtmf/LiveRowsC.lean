import Verif.Dtmf.LiveRowsB

/-!
# The table of sums behind C151: the tones of 1477 and 1633 Hz

The import keeps the three parts of the table from being checked at the same time, which would take more memory.
-/

set_option maxRecDepth 100000

namespace Verif.Dtmf.Live

theorem rowsC_ok : (rows.drop 6).all rowCheck = true := by decide +kernel

end Verif.Dtmf.Live

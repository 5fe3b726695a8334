import Verif.Dtmf.DialBall
import Verif.Dtmf.ToneLemmas

/-!
# The table of sums behind C140

The effective window of examples/dtmf_file.go, and what the eight detectors get of the eight tones through it, checked by the kernel in integer
arithmetic on a grid of a quarter of a hertz.
-/

set_option maxRecDepth 100000

namespace Verif.Dtmf.Dial
open Complex Verif.Ax25.Ear Verif.Ax25.Ear.Ball

/-! ## Roots of unity -/

theorem has_small {x lo hi : ℝ} {b : Ball} (h1 : lo ≤ x) (h2 : x ≤ hi) (h3 : 0 < lo) (h4 : hi ≤ 1)
    (c1 : (b.re : ℝ) - (b.err - 1) / 2 ≤ (1 - hi ^ 2 / 2 - hi ^ 4 * (5 / 96)) * 1000000000000)
    (c2 : (1 - lo ^ 2 / 2 + hi ^ 4 * (5 / 96)) * 1000000000000 ≤ (b.re : ℝ) + (b.err - 1) / 2)
    (s1 : (b.im : ℝ) - (b.err - 1) / 2 ≤ (lo - hi ^ 3 / 6 - hi ^ 5 * (5 / 96)) * 1000000000000)
    (s2 : (hi - lo ^ 3 / 6 + hi ^ 5 * (5 / 96)) * 1000000000000 ≤ (b.im : ℝ) + (b.err - 1) / 2) (_ : 1 ≤ b.err) :
    b.Has (exp ((x : ℝ) * I)) := by
  have h0 : 0 < x := h3.trans_le h1
  have hb : |x| ≤ 1 := by rw [abs_of_pos h0]; linarith
  have c := Real.cos_bound hb
  have s := Real.sin_bound hb
  rw [abs_of_pos h0] at c s
  have q1 : lo ^ 2 ≤ x ^ 2 := pow_le_pow_left₀ h3.le h1 2
  have q2 : x ^ 2 ≤ hi ^ 2 := pow_le_pow_left₀ h0.le h2 2
  have q3 : x ^ 4 ≤ hi ^ 4 := pow_le_pow_left₀ h0.le h2 4
  have q6 : x ^ 5 ≤ hi ^ 5 := pow_le_pow_left₀ h0.le h2 5
  have q4 : x ^ 3 ≤ hi ^ 3 := pow_le_pow_left₀ h0.le h2 3
  have q5 : lo ^ 3 ≤ x ^ 3 := pow_le_pow_left₀ h3.le h1 3
  rw [abs_le] at c s
  unfold Has
  refine (Complex.norm_le_abs_re_add_abs_im _).trans ?_
  have r1 : |Real.cos x * 1000000000000 - b.re| ≤ (b.err - 1) / 2 := by
    rw [abs_le]
    constructor <;> linarith
  have r2 : |Real.sin x * 1000000000000 - b.im| ≤ (b.err - 1) / 2 := by
    rw [abs_le]
    constructor <;> linarith
  rw [sub_re, sub_im, re_mul_ofReal, im_mul_ofReal, exp_ofReal_mul_I_re, exp_ofReal_mul_I_im]
  norm_num [scale, mid]
  linarith

/-- Enclosure of `e^{2πi/32000}`. -/
def rootF : Ball := ⟨999999980723, 196349540, 3⟩

theorem has_rootF : rootF.Has (exp ((2 * Real.pi / 32000 : ℝ) * I)) := by
  have h1 := Real.pi_gt_d20
  have h2 := Real.pi_lt_d20
  refine has_small (lo := 1963495408493620 / 10 ^ 19) (hi := 1963495408493630 / 10 ^ 19) ?_ ?_ (by norm_num) (by norm_num) (by norm_num [rootF]) (by norm_num [rootF]) (by norm_num [rootF]) (by norm_num [rootF]) (by norm_num [rootF])
  · rw [le_div_iff₀ (by norm_num)]; norm_num at h1 ⊢; linarith
  · rw [div_le_iff₀ (by norm_num)]; norm_num at h2 ⊢; linarith

/-- Enclosure of `e^{2πi/3280}`. -/
def rootB : Ball := ⟨999998165229, 1915604105, 5⟩

theorem has_rootB : rootB.Has (exp ((2 * Real.pi / 3280 : ℝ) * I)) := by
  have h1 := Real.pi_gt_d20
  have h2 := Real.pi_lt_d20
  refine has_small (lo := 19156052765791422 / 10 ^ 19) (hi := 19156052765791432 / 10 ^ 19) ?_ ?_ (by norm_num) (by norm_num) (by norm_num [rootB]) (by norm_num [rootB]) (by norm_num [rootB]) (by norm_num [rootB]) (by norm_num [rootB])
  · rw [le_div_iff₀ (by norm_num)]; norm_num at h1 ⊢; linarith
  · rw [div_le_iff₀ (by norm_num)]; norm_num at h2 ⊢; linarith

/-- Enclosure of `e^{2πi/3264}`. -/
def rootW : Ball := ⟨999998147197, 1924994310, 5⟩

theorem has_rootW : rootW.Has (exp ((2 * Real.pi / 3264 : ℝ) * I)) := by
  have h1 := Real.pi_gt_d20
  have h2 := Real.pi_lt_d20
  refine has_small (lo := 19249954985231576 / 10 ^ 19) (hi := 19249954985231586 / 10 ^ 19) ?_ ?_ (by norm_num) (by norm_num) (by norm_num [rootW]) (by norm_num [rootW]) (by norm_num [rootW]) (by norm_num [rootW]) (by norm_num [rootW])
  · rw [le_div_iff₀ (by norm_num)]; norm_num at h1 ⊢; linarith
  · rw [div_le_iff₀ (by norm_num)]; norm_num at h2 ⊢; linarith

/-- Powers by squaring, for exponents below `2 ^ k`. -/
def fpow (b : Ball) : Nat → Nat → Ball
  | 0, _ => one
  | k + 1, m =>
    let h := fpow b k (m / 2)
    let s := turn h h
    if m % 2 = 1 then turn s b else s

theorem has_fpow {b : Ball} {z : ℂ} (hb : b.Has z) (hz : ‖z‖ = 1) (k : Nat) : ∀ m < 2 ^ k, (fpow b k m).Has (z ^ m) := by
  induction k with
  | zero => intro m hm; obtain rfl : m = 0 := by omega
            simpa [fpow] using has_one
  | succ k ih =>
    intro m hm
    have h1 := ih (m / 2) (by omega)
    have hn : ‖z ^ (m / 2)‖ = 1 := by rw [norm_pow, hz, one_pow]
    have h2 := has_turn h1 h1 hn
    rw [← pow_add] at h2
    unfold fpow
    dsimp only
    split
    · have h3 := has_turn h2 hb hz
      rw [← pow_succ] at h3
      rwa [show m / 2 + m / 2 + 1 = m by omega] at h3
    · rwa [show m / 2 + m / 2 = m by omega] at h2

theorem norm_cis (x : ℝ) : ‖exp ((x : ℝ) * I)‖ = 1 := Complex.norm_exp_ofReal_mul_I x

theorem cis_pow (x : ℝ) (m : Nat) : exp ((x : ℝ) * I) ^ m = exp ((m * x : ℝ) * I) := by
  rw [← Complex.exp_nat_mul]
  congr 1
  push_cast
  ring

/-! ## The window -/

/-- The window in units of `1 / unitN`. -/
def hamList : List Nat :=
  [76720000000, 76938946752, 77595579322, 78689274855, 80218995915, 82183291468, 84580298262, 87407742589, 90662942449, 94342810086, 98443854923,
   102962186871, 107893520018, 113233176696, 118976091917, 125116818179, 131649530630, 138568032597, 145865761462, 153535794887, 161570857380,
   169963327198, 178705243576, 187788314276, 197203923454, 206943139837, 216996725186, 227355143067, 238008567894, 248946894247, 260159746462,
   271636488469, 283366233883, 295337856329, 307540000000, 319961090422, 332589345439, 345412786386, 358419249453, 371596397221, 384931730368,
   398412599522, 412026217263, 425759670249, 439599931469, 453533872595, 467548276442, 481629849498, 495765234537, 509941023292, 524143769168,
   538360000000, 552576230832, 566778976708, 580954765463, 595090150502, 609171723558, 623186127405, 637120068531, 650960329751, 664693782737,
   678307400478, 691788269632, 705123602779, 718300750547, 731307213614, 744130654561, 756758909578, 769180000000, 781382143671, 793353766117,
   805083511531, 816560253538, 827773105753, 838711432106, 849364856933, 859723274814, 869776860163, 879516076546, 888931685724, 898014756424,
   906756672802, 915149142620, 923184205113, 930854238538, 938151967403, 945070469370, 951603181821, 957743908083, 963486823304, 968826479982,
   973757813129, 978276145077, 982377189914, 986057057551, 989312257411, 992139701738, 994536708532, 996501004085, 998030725145, 999124420678,
   999781053248, 1000000000000, 999781053248, 999124420678, 998030725145, 996501004085, 994536708532, 992139701738, 989312257411, 986057057551,
   982377189914, 978276145077, 973757813129, 968826479982, 963486823304, 957743908083, 951603181821, 945070469370, 938151967403, 930854238538,
   923184205113, 915149142620, 906756672802, 898014756424, 888931685724, 879516076546, 869776860163, 859723274814, 849364856933, 838711432106,
   827773105753, 816560253538, 805083511531, 793353766117, 781382143671, 769180000000, 756758909578, 744130654561, 731307213614, 718300750547,
   705123602779, 691788269632, 678307400478, 664693782737, 650960329751, 637120068531, 623186127405, 609171723558, 595090150502, 580954765463,
   566778976708, 552576230832, 538360000000, 524143769168, 509941023292, 495765234537, 481629849498, 467548276442, 453533872595, 439599931469,
   425759670249, 412026217263, 398412599522, 384931730368, 371596397221, 358419249453, 345412786386, 332589345439, 319961090422, 307540000000,
   295337856329, 283366233883, 271636488469, 260159746462, 248946894247, 238008567894, 227355143067, 216996725186, 206943139837, 197203923454,
   187788314276, 178705243576, 169963327198, 161570857380, 153535794887, 145865761462, 138568032597, 131649530630, 125116818179, 118976091917,
   113233176696, 107893520018, 102962186871, 98443854923, 94342810086, 90662942449, 87407742589, 84580298262, 82183291468, 80218995915,
   78689274855, 77595579322, 76938946752, 76720000000]

/-- `e^{2πi/204}`. -/
def stepW : Ball := ⟨999525719711, 30795058550, 222⟩

theorem has_stepW : stepW.Has (exp ((2 * Real.pi / 204 : ℝ) * I)) := by
  have h := has_fpow has_rootW (norm_cis _) 5 16 (by norm_num)
  rw [cis_pow] at h
  have e : ((16 : Nat) * (2 * Real.pi / 3264) : ℝ) = 2 * Real.pi / 204 := by norm_num; ring
  rw [e] at h
  have e2 : fpow rootW 5 16 = stepW := by decide +kernel
  rwa [e2] at h

/-- The entry `c` is near the window at the angle of `P`. -/
def nearW (c : Nat) (P : Ball) : Bool :=
  decide (|(538360000000 - (c : Int)) * scale - 461640000000 * P.re| + 461640000000 * P.err ≤ 30000 * scale) && Nat.ble c unitN

/-- All entries from the angle of `P` on. -/
noncomputable def hamRun (l : List Nat) : Ball → Bool :=
  List.rec (motive := fun _ => Ball → Bool) (fun _ => true) (fun c _ ih P => nearW c P && forceB (turn P stepW) ih) l

theorem hamRun_ok : hamRun hamList one = true := by decide +kernel

/-! ## The effective window -/

/-- The product of the window at the positions `n`, `n + 51`, …, in units. -/
def effOf (n : Nat) : Nat := (List.range 5).foldl (fun p m => if n + 51 * m < 205 then p * hamList.getD (n + 51 * m) 0 / unitN else p) unitN

/-- The effective window in units of `1 / unitN`. -/
def effList : List Nat :=
  [1705936090, 22278901128, 22407336590, 22619231314, 22911373195, 23279333658, 23717534798, 24219333933, 24777124298, 25382450362, 26026135997,
   26698423585, 27389121932, 28087760755, 28783749402, 29466537394, 30125774362, 30751466944, 31334130279, 31864931785, 32335825052, 32739671818,
   33070350178, 33322847386, 33493335839, 33579231108, 33579231108, 33493335839, 33322847386, 33070350178, 32739671818, 32335825052, 31864931785,
   31334130279, 30751466944, 30125774362, 29466537394, 28783749402, 28087760756, 27389121932, 26698423585, 26026135997, 25382450362, 24777124299,
   24219333933, 23717534799, 23279333658, 22911373195, 22619231315, 22407336590, 22278901129, 22235871882, 289565974967, 288770788054,
   287449990573, 285610321279, 283261150085, 280414414310, 277084537552, 273288331816, 269044883649, 264375425137, 259303190784, 253853261329,
   248052395734, 241928852587, 235512202307, 228833131559, 221923241372, 214814840478, 207540735431, 200134019075, 192627858954, 185055287227,
   177448993642, 169841123103, 162263079295, 154745335812, 147317256112, 140006923620, 132840983130, 125844494639, 119040800575, 112451407315,
   106095881744, 99991763492, 94154493356, 88597358271, 83331453082, 78365659207, 73706640155, 69358853738, 65324580670, 61603969114, 58195094629,
   55094034825, 52294957956, 49790224522, 47570500914, 45624883996, 43941035466, 42505324759, 41302979200, 524029009592, 509494529476,
   494788936526, 479944628622, 464993923932, 449968961084, 434901600559, 419823327669, 404765157485, 389757542010, 374830279967, 360012429493,
   345332224066, 330816991935, 316493079359, 302385777905, 288519256055, 274916495364, 261599231383, 248587899526, 235901586098, 223557984599,
   211573357474, 199962503412, 188738730297, 177913833880, 167498082231, 157500205999, 147927394489, 138785297548, 130078033220, 121808201107,
   113976901379, 106583759312, 99626955246, 93103259808, 87008074266, 81335475807, 76078267551, 71228033093, 66775195325, 62709079310,
   59017978912, 55689226948, 52709268528, 50063737311, 47737534352, 45714909217, 43979543045, 42514633200, 41302979200, 524143769168,
   509941023292, 495765234537, 481629849498, 467548276442, 453533872595, 439599931469, 425759670249, 412026217263, 398412599522, 384931730368,
   371596397221, 358419249453, 345412786386, 332589345439, 319961090422, 307540000000, 295337856329, 283366233883, 271636488469, 260159746462,
   248946894247, 238008567894, 227355143067, 216996725186, 206943139837, 197203923454, 187788314276, 178705243576, 169963327198, 161570857380,
   153535794887, 145865761462, 138568032597, 131649530630, 125116818179, 118976091917, 113233176696, 107893520018, 102962186871, 98443854923,
   94342810086, 90662942449, 87407742589, 84580298262, 82183291468, 80218995915, 78689274855, 77595579322, 76938946752, 76720000000]

theorem effList_eq : effList = (List.range 205).map effOf := by decide +kernel

/-! ## The tones -/

/-- What the detector of bin `k` gets of a tone: at least `lo`, at most `up`, of the mirrored tone at most `mir`, in thousandths. -/
structure Col where
  k : Nat
  lo : Nat
  up : Nat
  mir : Nat

/-- The tone `f` and the frequencies within `j` quarters of a hertz. -/
structure Row where
  f : Nat
  j : Nat
  cols : List Col

/-- What the detectors get. -/
def rows : List Row :=
  [
   ⟨697, 7, [⟨18, 31815, 32632, 1095⟩, ⟨20, 0, 5414, 258⟩, ⟨22, 0, 10859, 991⟩, ⟨24, 0, 1792, 233⟩, ⟨31, 0, 1447, 720⟩, ⟨34, 0, 2463, 780⟩, ⟨38, 0, 1979, 731⟩, ⟨42, 0, 1658, 689⟩]⟩,
   ⟨770, 8, [⟨18, 0, 5678, 237⟩, ⟨20, 29659, 31388, 943⟩, ⟨22, 0, 4832, 218⟩, ⟨24, 0, 10411, 860⟩, ⟨31, 0, 2390, 190⟩, ⟨34, 0, 737, 187⟩, ⟨38, 0, 580, 182⟩, ⟨42, 0, 480, 179⟩]⟩,
   ⟨852, 9, [⟨18, 0, 11164, 986⟩, ⟨20, 0, 5840, 231⟩, ⟨22, 31277, 32529, 902⟩, ⟨24, 0, 5351, 211⟩, ⟨31, 0, 1970, 706⟩, ⟨34, 0, 3277, 726⟩, ⟨38, 0, 2461, 685⟩, ⟨42, 0, 1978, 649⟩]⟩,
   ⟨941, 9, [⟨18, 0, 1794, 269⟩, ⟨20, 0, 10961, 953⟩, ⟨22, 0, 5557, 248⟩, ⟨24, 31969, 32825, 886⟩, ⟨31, 0, 2234, 330⟩, ⟨34, 0, 1023, 204⟩, ⟨38, 0, 729, 193⟩, ⟨42, 0, 566, 184⟩]⟩,
   ⟨1209, 12, [⟨18, 0, 1962, 669⟩, ⟨20, 0, 1700, 291⟩, ⟨22, 0, 2814, 639⟩, ⟨24, 0, 2696, 264⟩, ⟨31, 32618, 32927, 180⟩, ⟨34, 0, 6897, 579⟩, ⟨38, 0, 2858, 566⟩, ⟨42, 0, 1805, 556⟩]⟩,
   ⟨1336, 13, [⟨18, 0, 2452, 832⟩, ⟨20, 0, 752, 221⟩, ⟨22, 0, 3260, 787⟩, ⟨24, 0, 1048, 210⟩, ⟨31, 0, 8846, 451⟩, ⟨34, 29692, 32172, 690⟩, ⟨38, 0, 11154, 667⟩, ⟨42, 0, 4950, 647⟩]⟩,
   ⟨1477, 15, [⟨18, 0, 1960, 742⟩, ⟨20, 0, 565, 176⟩, ⟨22, 0, 2450, 701⟩, ⟨24, 0, 729, 166⟩, ⟨31, 0, 2233, 622⟩, ⟨34, 0, 11164, 608⟩, ⟨38, 30934, 32824, 585⟩, ⟨42, 0, 10961, 566⟩]⟩,
   ⟨1633, 16, [⟨18, 0, 1638, 702⟩, ⟨20, 0, 463, 166⟩, ⟨22, 0, 1961, 666⟩, ⟨24, 0, 567, 162⟩, ⟨31, 0, 1411, 610⟩, ⟨34, 0, 5000, 587⟩, ⟨38, 0, 11164, 567⟩, ⟨42, 30792, 32838, 550⟩]⟩]

/-- `e^{2πik/205}` for the bins of the detectors. -/
def binBall : Nat → Ball
  | 18 => ⟨851637699566, 524130926928, 6742⟩
  | 20 => ⟨817929360813, 575318660071, 7230⟩
  | 22 => ⟨781148522619, 624345245439, 7704⟩
  | 24 => ⟨741433349971, 671026517668, 8252⟩
  | 31 => ⟨581569029124, 813497058459, 10063⟩
  | 34 => ⟨504417358160, 863459975088, 10870⟩
  | 38 => ⟨395037176651, 918665134222, 11955⟩
  | 42 => ⟨279726841806, 960079628875, 13121⟩
  | _ => one

/-- The bins of the detectors. -/
def binList : List Nat := [18, 20, 22, 24, 31, 34, 38, 42]

theorem has_binBall {k : Nat} (hk : k ∈ binList) : (binBall k).Has (exp ((2 * Real.pi * k / 205 : ℝ) * I)) := by
  have h := has_fpow has_rootB (norm_cis _) 10 (16 * k) (by simp [binList] at hk; omega)
  rw [cis_pow] at h
  have e : ((16 * k : Nat) * (2 * Real.pi / 3280) : ℝ) = 2 * Real.pi * k / 205 := by push_cast; ring
  rw [e] at h
  have e2 : ∀ k ∈ binList, fpow rootB 10 (16 * k) = binBall k := by decide +kernel
  rwa [e2 k hk] at h

/-- Thousandths in units. -/
def milli : Nat := 1000000000

/-- The check of one detector at one frequency. -/
noncomputable def colCheck (P : Ball) (c : Col) : Bool :=
  forceB (turn P (conj (binBall c.k))) (fun z => decide (z.err ≤ errZ) &&
    evalAt z effList fun s => Nat.ble (Nat.mul (Nat.mul c.lo milli) (Nat.mul c.lo milli)) s && Nat.ble s (Nat.mul (Nat.mul c.up milli) (Nat.mul c.up milli))) &&
  forceB (turn P (binBall c.k)) (fun z => decide (z.err ≤ errZ) &&
    evalAt z effList fun s => Nat.ble s (Nat.mul (Nat.mul c.mir milli) (Nat.mul c.mir milli)))

/-- The check of the next `n` frequencies. -/
noncomputable def rowRun (cols : List Col) (n : Nat) : Ball → Bool :=
  Nat.rec (motive := fun _ => Ball → Bool) (fun _ => true) (fun _ ih P => cols.all (colCheck P) && forceB (turn P rootF) ih) n

/-- The check of one tone. -/
noncomputable def rowCheck (r : Row) : Bool := forceB (fpow rootF 13 (4 * r.f - r.j)) (rowRun r.cols (2 * r.j + 1))

theorem row0_ok : ((rows.drop 0).take 1).all rowCheck = true := by decide +kernel

theorem row1_ok : ((rows.drop 1).take 1).all rowCheck = true := by decide +kernel

theorem row2_ok : ((rows.drop 2).take 1).all rowCheck = true := by decide +kernel

theorem row3_ok : ((rows.drop 3).take 1).all rowCheck = true := by decide +kernel

theorem row4_ok : ((rows.drop 4).take 1).all rowCheck = true := by decide +kernel

theorem row5_ok : ((rows.drop 5).take 1).all rowCheck = true := by decide +kernel

theorem row6_ok : ((rows.drop 6).take 1).all rowCheck = true := by decide +kernel

theorem row7_ok : ((rows.drop 7).take 1).all rowCheck = true := by decide +kernel

theorem rows_ok : rows.all rowCheck = true := by
  have e : rows = (rows.drop 0).take 1 ++ (rows.drop 1).take 1 ++ (rows.drop 2).take 1 ++ (rows.drop 3).take 1 ++ (rows.drop 4).take 1 ++
      (rows.drop 5).take 1 ++ (rows.drop 6).take 1 ++ (rows.drop 7).take 1 := rfl
  rw [e]
  simp only [List.all_append, row0_ok, row1_ok, row2_ok, row3_ok, row4_ok, row5_ok, row6_ok, row7_ok, Bool.and_self]

end Verif.Dtmf.Dial

import Verif.Visualizer.PathProps
import Mathlib.Tactic.Positivity
/-!
# The colours of the speeds (C108)

The table `viridis_colors`, /repo/src/gcode2ps.cc lines 1504-1632, and the choice of an entry for a speed, lines 984-996 (`Path.colourIndex`).
-/
namespace BeagleG.Visualizer.Path

/-- `viridis_colors`, gcode2ps.cc 1504-1632: red, green and blue in millionths. The texts there have six digits behind the point. -/
def viridis : List (Nat × Nat × Nat) := [
  (267004, 4874, 329415), (268510, 9605, 335427), (269944, 14625, 341379), (271305, 19942, 347269), (272594, 25563, 353093),
  (273809, 31497, 358853), (274952, 37752, 364543), (276022, 44167, 370164), (277018, 50344, 375715), (277941, 56324, 381191),
  (278791, 62145, 386592), (279566, 67836, 391917), (280267, 73417, 397163), (280894, 78907, 402329), (281446, 84320, 407414),
  (281924, 89666, 412415), (282327, 94955, 417331), (282656, 100196, 422160), (282910, 105393, 426902), (283091, 110553, 431554),
  (283197, 115680, 436115), (283229, 120777, 440584), (283187, 125848, 444960), (283072, 130895, 449241),
  (282884, 135920, 453427), (282623, 140926, 457517), (282290, 145912, 461510), (281887, 150881, 465405),
  (281412, 155834, 469201), (280868, 160771, 472899), (280255, 165693, 476498), (279574, 170599, 479997),
  (278826, 175490, 483397), (278012, 180367, 486697), (277134, 185228, 489898), (276194, 190074, 493001),
  (275191, 194905, 496005), (274128, 199721, 498911), (273006, 204520, 501721), (271828, 209303, 504434),
  (270595, 214069, 507052), (269308, 218818, 509577), (267968, 223549, 512008), (266580, 228262, 514349),
  (265145, 232956, 516599), (263663, 237631, 518762), (262138, 242286, 520837), (260571, 246922, 522828),
  (258965, 251537, 524736), (257322, 256130, 526563), (255645, 260703, 528312), (253935, 265254, 529983),
  (252194, 269783, 531579), (250425, 274290, 533103), (248629, 278775, 534556), (246811, 283237, 535941),
  (244972, 287675, 537260), (243113, 292092, 538516), (241237, 296485, 539709), (239346, 300855, 540844),
  (237441, 305202, 541921), (235526, 309527, 542944), (233603, 313828, 543914), (231674, 318106, 544834),
  (229739, 322361, 545706), (227802, 326594, 546532), (225863, 330805, 547314), (223925, 334994, 548053),
  (221989, 339161, 548752), (220057, 343307, 549413), (218130, 347432, 550038), (216210, 351535, 550627),
  (214298, 355619, 551184), (212395, 359683, 551710), (210503, 363727, 552206), (208623, 367752, 552675),
  (206756, 371758, 553117), (204903, 375746, 553533), (203063, 379716, 553925), (201239, 383670, 554294),
  (199430, 387607, 554642), (197636, 391528, 554969), (195860, 395433, 555276), (194100, 399323, 555565),
  (192357, 403199, 555836), (190631, 407061, 556089), (188923, 410910, 556326), (187231, 414746, 556547),
  (185556, 418570, 556753), (183898, 422383, 556944), (182256, 426184, 557120), (180629, 429975, 557282),
  (179019, 433756, 557430), (177423, 437527, 557565), (175841, 441290, 557685), (174274, 445044, 557792),
  (172719, 448791, 557885), (171176, 452530, 557965), (169646, 456262, 558030), (168126, 459988, 558082),
  (166617, 463708, 558119), (165117, 467423, 558141), (163625, 471133, 558148), (162142, 474838, 558140),
  (160665, 478540, 558115), (159194, 482237, 558073), (157729, 485932, 558013), (156270, 489624, 557936),
  (154815, 493313, 557840), (153364, 497000, 557724), (151918, 500685, 557587), (150476, 504369, 557430),
  (149039, 508051, 557250), (147607, 511733, 557049), (146180, 515413, 556823), (144759, 519093, 556572),
  (143343, 522773, 556295), (141935, 526453, 555991), (140536, 530132, 555659), (139147, 533812, 555298),
  (137770, 537492, 554906), (136408, 541173, 554483), (135066, 544853, 554029), (133743, 548535, 553541),
  (132444, 552216, 553018), (131172, 555899, 552459), (129933, 559582, 551864), (128729, 563265, 551229),
  (127568, 566949, 550556), (126453, 570633, 549841), (125394, 574318, 549086), (124395, 578002, 548287),
  (123463, 581687, 547445), (122606, 585371, 546557), (121831, 589055, 545623), (121148, 592739, 544641),
  (120565, 596422, 543611), (120092, 600104, 542530), (119738, 603785, 541400), (119512, 607464, 540218),
  (119423, 611141, 538982), (119483, 614817, 537692), (119699, 618490, 536347), (120081, 622161, 534946),
  (120638, 625828, 533488), (121380, 629492, 531973), (122312, 633153, 530398), (123444, 636809, 528763),
  (124780, 640461, 527068), (126326, 644107, 525311), (128087, 647749, 523491), (130067, 651384, 521608),
  (132268, 655014, 519661), (134692, 658636, 517649), (137339, 662252, 515571), (140210, 665859, 513427),
  (143303, 669459, 511215), (146616, 673050, 508936), (150148, 676631, 506589), (153894, 680203, 504172),
  (157851, 683765, 501686), (162016, 687316, 499129), (166383, 690856, 496502), (170948, 694384, 493803),
  (175707, 697900, 491033), (180653, 701402, 488189), (185783, 704891, 485273), (191090, 708366, 482284),
  (196571, 711827, 479221), (202219, 715272, 476084), (208030, 718701, 472873), (214000, 722114, 469588),
  (220124, 725509, 466226), (226397, 728888, 462789), (232815, 732247, 459277), (239374, 735588, 455688),
  (246070, 738910, 452024), (252899, 742211, 448284), (259857, 745492, 444467), (266941, 748751, 440573),
  (274149, 751988, 436601), (281477, 755203, 432552), (288921, 758394, 428426), (296479, 761561, 424223),
  (304148, 764704, 419943), (311925, 767822, 415586), (319809, 770914, 411152), (327796, 773980, 406640),
  (335885, 777018, 402049), (344074, 780029, 397381), (352360, 783011, 392636), (360741, 785964, 387814),
  (369214, 788888, 382914), (377779, 791781, 377939), (386433, 794644, 372886), (395174, 797475, 367757),
  (404001, 800275, 362552), (412913, 803041, 357269), (421908, 805774, 351910), (430983, 808473, 346476),
  (440137, 811138, 340967), (449368, 813768, 335384), (458674, 816363, 329727), (468053, 818921, 323998),
  (477504, 821444, 318195), (487026, 823929, 312321), (496615, 826376, 306377), (506271, 828786, 300362),
  (515992, 831158, 294279), (525776, 833491, 288127), (535621, 835785, 281908), (545524, 838039, 275626),
  (555484, 840254, 269281), (565498, 842430, 262877), (575563, 844566, 256415), (585678, 846661, 249897),
  (595839, 848717, 243329), (606045, 850733, 236712), (616293, 852709, 230052), (626579, 854645, 223353),
  (636902, 856542, 216620), (647257, 858400, 209861), (657642, 860219, 203082), (668054, 861999, 196293),
  (678489, 863742, 189503), (688944, 865448, 182725), (699415, 867117, 175971), (709898, 868751, 169257),
  (720391, 870350, 162603), (730889, 871916, 156029), (741388, 873449, 149561), (751884, 874951, 143228),
  (762373, 876424, 137064), (772852, 877868, 131109), (783315, 879285, 125405), (793760, 880678, 120005),
  (804182, 882046, 114965), (814576, 883393, 110347), (824940, 884720, 106217), (835270, 886029, 102646),
  (845561, 887322, 99702), (855810, 888601, 97452), (866013, 889868, 95953), (876168, 891125, 95250), (886271, 892374, 95374),
  (896320, 893616, 96335), (906311, 894855, 98125), (916242, 896091, 100717), (926106, 897330, 104071), (935904, 898570, 108131),
  (945636, 899815, 112838), (955300, 901065, 118128), (964894, 902323, 123941), (974417, 903590, 130215),
  (983868, 904867, 136897), (993248, 906157, 143936)]

/-- `get_color_for_index`, gcode2ps.cc 495-497; `none`: outside of the array. -/
def colourFor (index : Int) : Option (Nat × Nat × Nat) := if 0 ≤ index then viridis[index.toNat]? else none

/-- The default colours of what is not a speed in the path of the machine: `OutOfRangeColor` and `MachineMoveColor`, gcode2ps.cc 615-616. -/
def others : List (Nat × Nat × Nat) := [(1000000, 500000, 500000), (600000, 600000, 600000)]

/-- How light a colour is without colours: 0.3 red, 0.59 green, 0.11 blue, in hundredths of millionths. (PostScript Language Reference, 7.2.1; not in
the repository.) -/
def gray (c : Nat × Nat × Nat) : Nat := 30 * c.1 + 59 * c.2.1 + 11 * c.2.2

theorem viridis_length : viridis.length = 256 := by decide +kernel

theorem viridis_pairs : ∀ i : Fin 255, gray (viridis.getD i.val (0, 0, 0)) < gray (viridis.getD (i.val + 1) (0, 0, 0)) := by
  decide +kernel

theorem gray_lt {i j : Nat} (hij : i < j) (hj : j < 256) :
    gray (viridis.getD i (0, 0, 0)) < gray (viridis.getD j (0, 0, 0)) := by
  induction j with
  | zero => omega
  | succ j ih =>
    have h1 := viridis_pairs ⟨j, by omega⟩
    by_cases h : i = j
    · subst h; exact h1
    · exact lt_trans (ih (by omega) (by omega)) h1

theorem colourFor_some {i : Int} (h0 : 0 ≤ i) (h1 : i < 256) : colourFor i = some (viridis.getD i.toNat (0, 0, 0)) := by
  have : i.toNat < viridis.length := by rw [viridis_length]; omega
  rw [colourFor, if_pos h0, List.getD_eq_getElem?_getD, List.getElem?_eq_getElem this]
  rfl

/-- **C108** Every entry of the table is a colour, and none is that of moves outside of the machine or of moves without a speed. -/
theorem C108_colours : ∀ c ∈ viridis, c.1 ≤ 1000000 ∧ c.2.1 ≤ 1000000 ∧ c.2.2 ≤ 1000000 ∧ c ∉ others := by
  decide +kernel

/-- **C108** There is an entry for every index that is chosen, and a greater index is a lighter colour. -/
theorem C108_table {s : State} {v : ℚ} {i : Int} (h : colourIndex s v = some i) : ∃ c ∈ viridis, colourFor i = some c := by
  obtain ⟨h0, h1⟩ := colourIndex_range h
  have : i.toNat < viridis.length := by rw [viridis_length]; omega
  refine ⟨viridis[i.toNat], List.getElem_mem this, ?_⟩
  rw [colourFor, if_pos h0, List.getElem?_eq_getElem this]

theorem roundf_mono {a b : ℚ} (ha : 0 ≤ a) (h : a ≤ b) : roundf a ≤ roundf b := by
  unfold roundf
  rw [if_pos ha, if_pos (ha.trans h)]
  exact Int.floor_le_floor (by linarith)

theorem roundf_lt {a b : ℚ} (ha : 0 ≤ a) (h : a + 1 ≤ b) : roundf a < roundf b := by
  unfold roundf
  rw [if_pos ha, if_pos (by linarith)]
  have : ⌊a + 1 / 2⌋ + 1 ≤ ⌊b + 1 / 2⌋ := by
    rw [← Int.floor_add_one]
    exact Int.floor_le_floor (by linarith)
  omega

theorem colourIndex_mono {s : State} (hr : s.minColour < s.maxColour) {v w : ℚ} {i j : Int} (hi : colourIndex s v = some i)
    (hj : colourIndex s w = some j) (h : v ≤ w) : i ≤ j := by
  obtain ⟨i0, i1⟩ := colourIndex_range hi
  obtain ⟨j0, j1⟩ := colourIndex_range hj
  have hd : 0 < s.maxColour - s.minColour := by linarith
  unfold colourIndex at hi hj
  by_cases a1 : v < s.minColour
  · rw [if_pos a1] at hi; cases hi; exact j0
  by_cases b2 : s.maxColour < w
  · rw [if_neg (by linarith), if_pos b2] at hj; cases hj; omega
  rw [if_neg a1, if_neg (by linarith), if_neg hd.ne'] at hi
  rw [if_neg (by linarith), if_neg b2, if_neg hd.ne'] at hj
  dsimp only at hi hj
  split at hi <;> cases hi
  split at hj <;> cases hj
  refine roundf_mono ?_ ?_
  · exact div_nonneg (by linarith) hd.le
  · exact div_le_div_of_nonneg_right (by linarith) hd.le

/-- **C108** Faster is lighter, also without colours: of two speeds in the same picture the greater one has the same colour or a lighter one, and a
lighter one if they differ by a 255th part of the scale. -/
theorem C108_lighter {s : State} (hr : s.minColour < s.maxColour) {v w : ℚ} {i j : Int} (hi : colourIndex s v = some i)
    (hj : colourIndex s w = some j) (h : v ≤ w) :
    ∃ c d, colourFor i = some c ∧ colourFor j = some d ∧ gray c ≤ gray d ∧ (gray c = gray d ↔ i = j) ∧
      (s.minColour ≤ v → w ≤ s.maxColour → (s.maxColour - s.minColour) / 255 ≤ w - v → gray c < gray d) := by
  obtain ⟨i0, i1⟩ := colourIndex_range hi
  obtain ⟨j0, j1⟩ := colourIndex_range hj
  have hm := colourIndex_mono hr hi hj h
  have key : i < j → gray (viridis.getD i.toNat (0, 0, 0)) < gray (viridis.getD j.toNat (0, 0, 0)) :=
    fun hlt => gray_lt (by omega) (by omega)
  refine ⟨_, _, colourFor_some i0 i1, colourFor_some j0 j1, ?_, ?_, ?_⟩
  · rcases lt_or_eq_of_le hm with hlt | rfl
    · exact (key hlt).le
    · exact le_refl _
  · constructor
    · intro he
      rcases lt_or_eq_of_le hm with hlt | he'
      · exact absurd he (key hlt).ne
      · exact he'
    · rintro rfl; rfl
  · intro hv hw hfar
    apply key
    have hd : 0 < s.maxColour - s.minColour := by linarith
    unfold colourIndex at hi hj
    rw [if_neg (by linarith), if_neg (by linarith), if_neg hd.ne'] at hi
    rw [if_neg (by linarith), if_neg (by linarith), if_neg hd.ne'] at hj
    dsimp only at hi hj
    split at hi <;> cases hi
    split at hj <;> cases hj
    refine roundf_lt (div_nonneg (by linarith) hd.le) ?_
    rw [div_add_one hd.ne']
    exact div_le_div_of_nonneg_right (by linarith) hd.le

/-- Non-vacuity of `C108_lighter`: the slowest and the fastest of the speeds from 10 to 50. -/
example : colourIndex { minColour := 10, maxColour := 50 } 10 = some 0 ∧ colourIndex { minColour := 10, maxColour := 50 } 50 = some 255 ∧
    colourFor 0 = some (267004, 4874, 329415) ∧ colourFor 255 = some (993248, 906157, 143936) := by
  decide +kernel

end BeagleG.Visualizer.Path

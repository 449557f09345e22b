/-!
# The tables of colour maps, `src/nx_color_map_data.h`

Decimal fractions as numerators; the denominator is 1000000, and 1000000000000000000 for `cubehelix`.
-/

namespace Nx

/-- `nx_color_map_data_viridis`, `src/nx_color_map_data.h:26-281`. -/
def viridisTable : List (Nat × Nat × Nat) := [
  (267004, 4874, 329415), (268510, 9605, 335427), (269944, 14625, 341379), (271305, 19942, 347269), (272594, 25563, 353093),
  (273809, 31497, 358853), (274952, 37752, 364543), (276022, 44167, 370164), (277018, 50344, 375715), (277941, 56324, 381191),
  (278791, 62145, 386592), (279566, 67836, 391917), (280267, 73417, 397163), (280894, 78907, 402329), (281446, 84320, 407414),
  (281924, 89666, 412415), (282327, 94955, 417331), (282656, 100196, 422160), (282910, 105393, 426902), (283091, 110553, 431554),
  (283197, 115680, 436115), (283229, 120777, 440584), (283187, 125848, 444960), (283072, 130895, 449241), (282884, 135920, 453427),
  (282623, 140926, 457517), (282290, 145912, 461510), (281887, 150881, 465405), (281412, 155834, 469201), (280868, 160771, 472899),
  (280255, 165693, 476498), (279574, 170599, 479997), (278826, 175490, 483397), (278012, 180367, 486697), (277134, 185228, 489898),
  (276194, 190074, 493001), (275191, 194905, 496005), (274128, 199721, 498911), (273006, 204520, 501721), (271828, 209303, 504434),
  (270595, 214069, 507052), (269308, 218818, 509577), (267968, 223549, 512008), (266580, 228262, 514349), (265145, 232956, 516599),
  (263663, 237631, 518762), (262138, 242286, 520837), (260571, 246922, 522828), (258965, 251537, 524736), (257322, 256130, 526563),
  (255645, 260703, 528312), (253935, 265254, 529983), (252194, 269783, 531579), (250425, 274290, 533103), (248629, 278775, 534556),
  (246811, 283237, 535941), (244972, 287675, 537260), (243113, 292092, 538516), (241237, 296485, 539709), (239346, 300855, 540844),
  (237441, 305202, 541921), (235526, 309527, 542944), (233603, 313828, 543914), (231674, 318106, 544834), (229739, 322361, 545706),
  (227802, 326594, 546532), (225863, 330805, 547314), (223925, 334994, 548053), (221989, 339161, 548752), (220057, 343307, 549413),
  (218130, 347432, 550038), (216210, 351535, 550627), (214298, 355619, 551184), (212395, 359683, 551710), (210503, 363727, 552206),
  (208623, 367752, 552675), (206756, 371758, 553117), (204903, 375746, 553533), (203063, 379716, 553925), (201239, 383670, 554294),
  (199430, 387607, 554642), (197636, 391528, 554969), (195860, 395433, 555276), (194100, 399323, 555565), (192357, 403199, 555836),
  (190631, 407061, 556089), (188923, 410910, 556326), (187231, 414746, 556547), (185556, 418570, 556753), (183898, 422383, 556944),
  (182256, 426184, 557120), (180629, 429975, 557282), (179019, 433756, 557430), (177423, 437527, 557565), (175841, 441290, 557685),
  (174274, 445044, 557792), (172719, 448791, 557885), (171176, 452530, 557965), (169646, 456262, 558030), (168126, 459988, 558082),
  (166617, 463708, 558119), (165117, 467423, 558141), (163625, 471133, 558148), (162142, 474838, 558140), (160665, 478540, 558115),
  (159194, 482237, 558073), (157729, 485932, 558013), (156270, 489624, 557936), (154815, 493313, 557840), (153364, 497000, 557724),
  (151918, 500685, 557587), (150476, 504369, 557430), (149039, 508051, 557250), (147607, 511733, 557049), (146180, 515413, 556823),
  (144759, 519093, 556572), (143343, 522773, 556295), (141935, 526453, 555991), (140536, 530132, 555659), (139147, 533812, 555298),
  (137770, 537492, 554906), (136408, 541173, 554483), (135066, 544853, 554029), (133743, 548535, 553541), (132444, 552216, 553018),
  (131172, 555899, 552459), (129933, 559582, 551864), (128729, 563265, 551229), (127568, 566949, 550556), (126453, 570633, 549841),
  (125394, 574318, 549086), (124395, 578002, 548287), (123463, 581687, 547445), (122606, 585371, 546557), (121831, 589055, 545623),
  (121148, 592739, 544641), (120565, 596422, 543611), (120092, 600104, 542530), (119738, 603785, 541400), (119512, 607464, 540218),
  (119423, 611141, 538982), (119483, 614817, 537692), (119699, 618490, 536347), (120081, 622161, 534946), (120638, 625828, 533488),
  (121380, 629492, 531973), (122312, 633153, 530398), (123444, 636809, 528763), (124780, 640461, 527068), (126326, 644107, 525311),
  (128087, 647749, 523491), (130067, 651384, 521608), (132268, 655014, 519661), (134692, 658636, 517649), (137339, 662252, 515571),
  (140210, 665859, 513427), (143303, 669459, 511215), (146616, 673050, 508936), (150148, 676631, 506589), (153894, 680203, 504172),
  (157851, 683765, 501686), (162016, 687316, 499129), (166383, 690856, 496502), (170948, 694384, 493803), (175707, 697900, 491033),
  (180653, 701402, 488189), (185783, 704891, 485273), (191090, 708366, 482284), (196571, 711827, 479221), (202219, 715272, 476084),
  (208030, 718701, 472873), (214000, 722114, 469588), (220124, 725509, 466226), (226397, 728888, 462789), (232815, 732247, 459277),
  (239374, 735588, 455688), (246070, 738910, 452024), (252899, 742211, 448284), (259857, 745492, 444467), (266941, 748751, 440573),
  (274149, 751988, 436601), (281477, 755203, 432552), (288921, 758394, 428426), (296479, 761561, 424223), (304148, 764704, 419943),
  (311925, 767822, 415586), (319809, 770914, 411152), (327796, 773980, 406640), (335885, 777018, 402049), (344074, 780029, 397381),
  (352360, 783011, 392636), (360741, 785964, 387814), (369214, 788888, 382914), (377779, 791781, 377939), (386433, 794644, 372886),
  (395174, 797475, 367757), (404001, 800275, 362552), (412913, 803041, 357269), (421908, 805774, 351910), (430983, 808473, 346476),
  (440137, 811138, 340967), (449368, 813768, 335384), (458674, 816363, 329727), (468053, 818921, 323998), (477504, 821444, 318195),
  (487026, 823929, 312321), (496615, 826376, 306377), (506271, 828786, 300362), (515992, 831158, 294279), (525776, 833491, 288127),
  (535621, 835785, 281908), (545524, 838039, 275626), (555484, 840254, 269281), (565498, 842430, 262877), (575563, 844566, 256415),
  (585678, 846661, 249897), (595839, 848717, 243329), (606045, 850733, 236712), (616293, 852709, 230052), (626579, 854645, 223353),
  (636902, 856542, 216620), (647257, 858400, 209861), (657642, 860219, 203082), (668054, 861999, 196293), (678489, 863742, 189503),
  (688944, 865448, 182725), (699415, 867117, 175971), (709898, 868751, 169257), (720391, 870350, 162603), (730889, 871916, 156029),
  (741388, 873449, 149561), (751884, 874951, 143228), (762373, 876424, 137064), (772852, 877868, 131109), (783315, 879285, 125405),
  (793760, 880678, 120005), (804182, 882046, 114965), (814576, 883393, 110347), (824940, 884720, 106217), (835270, 886029, 102646),
  (845561, 887322, 99702), (855810, 888601, 97452), (866013, 889868, 95953), (876168, 891125, 95250), (886271, 892374, 95374),
  (896320, 893616, 96335), (906311, 894855, 98125), (916242, 896091, 100717), (926106, 897330, 104071), (935904, 898570, 108131),
  (945636, 899815, 112838), (955300, 901065, 118128), (964894, 902323, 123941), (974417, 903590, 130215), (983868, 904867, 136897),
  (993248, 906157, 143936)]

/-- `nx_color_map_data_plasma`, `src/nx_color_map_data.h:285-540`. -/
def plasmaTable : List (Nat × Nat × Nat) := [
  (50383, 29803, 527975), (63536, 28426, 533124), (75353, 27206, 538007), (86222, 26125, 542658), (96379, 25165, 547103),
  (105980, 24309, 551368), (115124, 23556, 555468), (123903, 22878, 559423), (132381, 22258, 563250), (140603, 21687, 566959),
  (148607, 21154, 570562), (156421, 20651, 574065), (164070, 20171, 577478), (171574, 19706, 580806), (178950, 19252, 584054),
  (186213, 18803, 587228), (193374, 18354, 590330), (200445, 17902, 593364), (207435, 17442, 596333), (214350, 16973, 599239),
  (221197, 16497, 602083), (227983, 16007, 604867), (234715, 15502, 607592), (241396, 14979, 610259), (248032, 14439, 612868),
  (254627, 13882, 615419), (261183, 13308, 617911), (267703, 12716, 620346), (274191, 12109, 622722), (280648, 11488, 625038),
  (287076, 10855, 627295), (293478, 10213, 629490), (299855, 9561, 631624), (306210, 8902, 633694), (312543, 8239, 635700),
  (318856, 7576, 637640), (325150, 6915, 639512), (331426, 6261, 641316), (337683, 5618, 643049), (343925, 4991, 644710),
  (350150, 4382, 646298), (356359, 3798, 647810), (362553, 3243, 649245), (368733, 2724, 650601), (374897, 2245, 651876),
  (381047, 1814, 653068), (387183, 1434, 654177), (393304, 1114, 655199), (399411, 859, 656133), (405503, 678, 656977),
  (411580, 577, 657730), (417642, 564, 658390), (423689, 646, 658956), (429719, 831, 659425), (435734, 1127, 659797),
  (441732, 1540, 660069), (447714, 2080, 660240), (453677, 2755, 660310), (459623, 3574, 660277), (465550, 4545, 660139),
  (471457, 5678, 659897), (477344, 6980, 659549), (483210, 8460, 659095), (489055, 10127, 658534), (494877, 11990, 657865),
  (500678, 14055, 657088), (506454, 16333, 656202), (512206, 18833, 655209), (517933, 21563, 654109), (523633, 24532, 652901),
  (529306, 27747, 651586), (534952, 31217, 650165), (540570, 34950, 648640), (546157, 38954, 647010), (551715, 43136, 645277),
  (557243, 47331, 643443), (562738, 51545, 641509), (568201, 55778, 639477), (573632, 60028, 637349), (579029, 64296, 635126),
  (584391, 68579, 632812), (589719, 72878, 630408), (595011, 77190, 627917), (600266, 81516, 625342), (605485, 85854, 622686),
  (610667, 90204, 619951), (615812, 94564, 617140), (620919, 98934, 614257), (625987, 103312, 611305), (631017, 107699, 608287),
  (636008, 112092, 605205), (640959, 116492, 602065), (645872, 120898, 598867), (650746, 125309, 595617), (655580, 129725, 592317),
  (660374, 134144, 588971), (665129, 138566, 585582), (669845, 142992, 582154), (674522, 147419, 578688), (679160, 151848, 575189),
  (683758, 156278, 571660), (688318, 160709, 568103), (692840, 165141, 564522), (697324, 169573, 560919), (701769, 174005, 557296),
  (706178, 178437, 553657), (710549, 182868, 550004), (714883, 187299, 546338), (719181, 191729, 542663), (723444, 196158, 538981),
  (727670, 200586, 535293), (731862, 205013, 531601), (736019, 209439, 527908), (740143, 213864, 524216), (744232, 218288, 520524),
  (748289, 222711, 516834), (752312, 227133, 513149), (756304, 231555, 509468), (760264, 235976, 505794), (764193, 240396, 502126),
  (768090, 244817, 498465), (771958, 249237, 494813), (775796, 253658, 491171), (779604, 258078, 487539), (783383, 262500, 483918),
  (787133, 266922, 480307), (790855, 271345, 476706), (794549, 275770, 473117), (798216, 280197, 469538), (801855, 284626, 465971),
  (805467, 289057, 462415), (809052, 293491, 458870), (812612, 297928, 455338), (816144, 302368, 451816), (819651, 306812, 448306),
  (823132, 311261, 444806), (826588, 315714, 441316), (830018, 320172, 437836), (833422, 324635, 434366), (836801, 329105, 430905),
  (840155, 333580, 427455), (843484, 338062, 424013), (846788, 342551, 420579), (850066, 347048, 417153), (853319, 351553, 413734),
  (856547, 356066, 410322), (859750, 360588, 406917), (862927, 365119, 403519), (866078, 369660, 400126), (869203, 374212, 396738),
  (872303, 378774, 393355), (875376, 383347, 389976), (878423, 387932, 386600), (881443, 392529, 383229), (884436, 397139, 379860),
  (887402, 401762, 376494), (890340, 406398, 373130), (893250, 411048, 369768), (896131, 415712, 366407), (898984, 420392, 363047),
  (901807, 425087, 359688), (904601, 429797, 356329), (907365, 434524, 352970), (910098, 439268, 349610), (912800, 444029, 346251),
  (915471, 448807, 342890), (918109, 453603, 339529), (920714, 458417, 336166), (923287, 463251, 332801), (925825, 468103, 329435),
  (928329, 472975, 326067), (930798, 477867, 322697), (933232, 482780, 319325), (935630, 487712, 315952), (937990, 492667, 312575),
  (940313, 497642, 309197), (942598, 502639, 305816), (944844, 507658, 302433), (947051, 512699, 299049), (949217, 517763, 295662),
  (951344, 522850, 292275), (953428, 527960, 288883), (955470, 533093, 285490), (957469, 538250, 282096), (959424, 543431, 278701),
  (961336, 548636, 275305), (963203, 553865, 271909), (965024, 559118, 268513), (966798, 564396, 265118), (968526, 569700, 261721),
  (970205, 575028, 258325), (971835, 580382, 254931), (973416, 585761, 251540), (974947, 591165, 248151), (976428, 596595, 244767),
  (977856, 602051, 241387), (979233, 607532, 238013), (980556, 613039, 234646), (981826, 618572, 231287), (983041, 624131, 227937),
  (984199, 629718, 224595), (985301, 635330, 221265), (986345, 640969, 217948), (987332, 646633, 214648), (988260, 652325, 211364),
  (989128, 658043, 208100), (989935, 663787, 204859), (990681, 669558, 201642), (991365, 675355, 198453), (991985, 681179, 195295),
  (992541, 687030, 192170), (993032, 692907, 189084), (993456, 698810, 186041), (993814, 704741, 183043), (994103, 710698, 180097),
  (994324, 716681, 177208), (994474, 722691, 174381), (994553, 728728, 171622), (994561, 734791, 168938), (994495, 740880, 166335),
  (994355, 746995, 163821), (994141, 753137, 161404), (993851, 759304, 159092), (993482, 765499, 156891), (993033, 771720, 154808),
  (992505, 777967, 152855), (991897, 784239, 151042), (991209, 790537, 149377), (990439, 796859, 147870), (989587, 803205, 146529),
  (988648, 809579, 145357), (987621, 815978, 144363), (986509, 822401, 143557), (985314, 828846, 142945), (984031, 835315, 142528),
  (982653, 841812, 142303), (981190, 848329, 142279), (979644, 854866, 142453), (977995, 861432, 142808), (976265, 868016, 143351),
  (974443, 874622, 144061), (972530, 881250, 144923), (970533, 887896, 145919), (968443, 894564, 147014), (966271, 901249, 148180),
  (964021, 907950, 149370), (961681, 914672, 150520), (959276, 921407, 151566), (956808, 928152, 152409), (954287, 934908, 152921),
  (951726, 941671, 152925), (949151, 948435, 152178), (946602, 955190, 150328), (944152, 961916, 146861), (941896, 968590, 140956),
  (940015, 975158, 131326)]

/-- `nx_color_map_data_cubehelix`, `src/nx_color_map_data.h:544-744`. -/
def cubehelixTable : List (Nat × Nat × Nat) := [
  (0, 0, 0), (8532088468472343, 2709716096360883, 7651331072984423),
  (16767137106577290, 5504352066236669, 15657290631000735), (24686685382364147, 8397866578231182, 23993356035807642),
  (32273943746172054, 11403599858325703, 32633764535075140), (39513841394597925, 14534228058981021, 41551627745687554),
  (46393067394386250, 17801720464175240, 50719049035374770), (52900105086883070, 21217299649789020, 60107243378618240),
  (59025259716228545, 24791404708151513, 69686659258171690), (64760679247010540, 28533657634695770, 79427102180317950),
  (70100368359595040, 32452832963575706, 89297859370153320), (75040195633719610, 36556830727805230, 99267825212747050),
  (79577893953114600, 40852652808028564, 109305627006957780), (83713054185837130, 45346382722455975, 119379750600989130),
  (87447112216597110, 50043168898838320, 129458665482418270), (90783329428560280, 54947211457642225, 139510948900415540),
  (93726766752864750, 60061752523863200, 149505408604161730), (96284252424325090, 65389070073212200, 159411203789043100),
  (98464343601461220, 70930475306768800, 169197963851022450), (100277282028020430, 76686313536646100, 178835904559620950),
  (101734943931504780, 82655968553794900, 188295941271154680), (102850784371820550, 88837870437822320, 197549798816216700),
  (103639776269978540, 95229506757646000, 206570117708829270), (104118344362749730, 101827437100982880, 215330556339167340),
  (104304294344271210, 108627310860115390, 223805888827223460), (104216737469763100, 115623888191115770, 231972098231186860),
  (103876010909718330, 122811064053774340, 239806464821595570), (103303594155127160, 130181895229898600, 247287649150428700),
  (102522021785465350, 137728630208453200, 254395769663173840), (101554792921279800, 145442741817225360, 261112474621473470),
  (100426277692220220, 153314962472350100, 267421008124153540), (99161621059270760, 161335321909136940, 273306270035208350),
  (97786644336708700, 169493187250232350, 278754869648581400), (96327744764945900, 177777305260243000, 283755172941282800),
  (94811793489879420, 186175846629560200, 288297343288441030), (93266032307680630, 194676452124278640, 292373375536237930),
  (91717969536087020, 203266280433810900, 295977123351239400), (90195275374221100, 211932057543075150, 299104319787351970),
  (88725677112751770, 220660127451991340, 301752591034421540), (87336854554844220, 229436504061469180, 303921463335280030),
  (86056336005814030, 238246924042120000, 305612363080771670), (84911395185739970, 247076900499577420, 306828610114871100),
  (83928949414492170, 255911777248578830, 307575404304376200), (83135459412743860, 264736783506836270, 307859805449755500),
  (82556831055551140, 273537088819220840, 307690706635471100), (82218319407058700, 282297858022889870, 307078801139430900),
  (82144435355830160, 291004306064705730, 306036543042073900), (82358855160253210, 299641752483617130, 304578101695896160),
  (82884333202463360, 308195675372598730, 302719310235930900), (83742618237306640, 316651764637257700, 300477608330725840),
  (84954373410058020, 324995974371312200, 297871979391678200), (86539100302978980, 333214574172810140, 294922882476119750),
  (88515067256372700, 341294199229175700, 291652179136251630), (90899242194634720, 349221899003931140, 288083055481850600),
  (93707230171944630, 356985184363222800, 284239939739569500), (96953215835758920, 364572072986066640, 280148415605580240),
  (100649910989193870, 371971132908500150, 275835131701225200), (104808507415794420, 379171524058561860, 271327707453211440),
  (109438635112118320, 386163037646193100, 266654635730664900), (114548326055094130, 392936133279747100, 261845182581037840),
  (120143983612283120, 399481973688771860, 256929284415391100), (126230357684064180, 405792456941080240, 251937443000940300),
  (132810525647415500, 411860246050798960, 246900618624945280), (139885879151459170, 417678795883084300, 241850121798995950),
  (147456116795319530, 423242377270456770, 236817503876532440), (155519242699191960, 428546098265230440, 231834446958977400),
  (164071570959882370, 433585922462244900, 226932653467194960), (173107735962525930, 438358684336034750, 222143735755081900),
  (182620708500785180, 442862101546646570, 217499106140980860), (192601817638625330, 447094784178516600, 213029867730257230),
  (203040778227827320, 451056240887108940, 208766706398842730), (213925723976788830, 454746881938364600, 204739784302800700),
  (225243245947935630, 458168019136379300, 200978635273062920), (236978436343277230, 461321862645091900, 197512062447413300),
  (249114937420354370, 464211514720084650, 194368038483602120), (261634995364078600, 466840960376840000, 191573608688180900),
  (274519518923831400, 469215055031939900, 189154797385280100), (287748142609701900, 471339509163690100, 187136517838158500),
  (301299294226952800, 473220870048482230, 185542486023961100), (315150266513768500, 474866500638833100, 184395138548776950),
  (329277292634082840, 476284555658438200, 183715554975832800), (343655625264867150, 477483954998706900, 183523384824539640),
  (358259619005700100, 478474354510098300, 183836779482180470), (373062815827795160, 479266114290097700, 184672329253331400),
  (388038033269944600, 479870264577862400, 186045005754709000), (403157455080091930, 480298469373376170, 187968109845084940),
  (418392723993485400, 480562987906373250, 190453225261264070), (433715036331626950, 480676634087297770, 193510178111946680),
  (449095238100525400, 480652734079123340, 197147002361642200), (464503922262106200, 480505082134969300, 201369911416753060),
  (479911526849049900, 480247894852071600, 206183275905537260), (495288433590817000, 479895763997801000, 211589607722989100),
  (510605066717194600, 479463608068039100, 217589550390777040), (525831991605361200, 478966622742318200, 224181875761346880),
  (540940012937215200, 478420230403684700, 231363487074177600), (555900272035547900, 477840028894255600, 239129428351053100),
  (570684343050554500, 477241739679880800, 247472900096137300), (585264327672155400, 476641155599210200, 256385281245694500),
  (599612948048635900, 476054088373771200, 265856157291533670), (613703637598191800, 475496316056397640, 275873354481755540),
  (627510629407050700, 474983530595509740, 286422979982191240), (641009041915937100, 474531285692318950, 297489467862130150),
  (654174961605705200, 474154945127036650, 309055630748578560), (666985522402960300, 473869631728591500, 321102716974450600),
  (679418981537401900, 473690177160222600, 333610473027822540), (691454791594403300, 473631072690611500, 346557211091735100),
  (703073668518962700, 473706421116961260, 359919881447070200), (714257655340576700, 473929890002635630, 373674149494804800),
  (724990181402758400, 474314666387641640, 387794477138511800), (735256116895802600, 474873413125392100, 402254208253384900),
  (745041822506943800, 475618226993840600, 417025657954359860), (754335194018203400, 476560598723246850, 432080205363120530),
  (763125701698944100, 477711375076532400, 447388389561980570), (771404424357373400, 479080723111441100, 462920008411826460),
  (779164077932914400, 480678096746547050, 478644219901563750), (786399038529446100, 482512205745577900, 494529645687825100),
  (793105359807825800, 484590987226569240, 510544476476130200), (799280784674817100, 486921579794056040, 526656578888248700),
  (804924751224460400, 489510300383871800, 542833603455217500), (810038392907020500, 492362623901188350, 559043093371358500),
  (814624532919828300, 495483165723222150, 575252593641685700), (818687672833567900, 498875667128573900, 591429760253363600),
  (822233975486773700, 502542983705507700, 607542469001325400), (825271242200428000, 506487076781617900, 623558923598829600),
  (827808884383544300, 510709007907335800, 639447762705594100), (829857889619402300, 515208936415597600, 655178165509214300),
  (831430782340628400, 519986120069789200, 670719955499831200), (832541579219512900, 525038918801807100, 686043702083450200),
  (833205739417779600, 530364801531792800, 701120819685915300), (833440109857403400, 535960356050802500, 715923664007289100),
  (833262865690960600, 541821301937445200, 730425625095259400), (832693446166340900, 547942506469345000, 744601216916163100),
  (831752486096379400, 554318003480230000, 758426163113248500), (830461743159064200, 560941015103530000, 771877478653865000),
  (828844021268346300, 567803976333609100, 784933547080335800), (826923090269223400, 574898562326222800, 797574193093296000),
  (824723602223597300, 582215718350464900, 809780750211211300), (822271004565416100, 589745692295428500, 821536123265607900),
  (819591450414732700, 597478069626040000, 832824845508169700), (816711706350518500, 605401810674097200, 843633130123271300),
  (813659057951339600, 613505290142445600, 853948915957623900), (810461213421274300, 621776338692525500, 863761907297500100),
  (807146205625725100, 630202286478205100, 873063607543391200), (803742292868012500, 638770008481930600, 881847346651869900),
  (800277858742806200, 647465971502789100, 890108302234859900), (796781311406559300, 656276282640113400, 897843514227324900),
  (793280982608098000, 665186739110778200, 905051893055591500), (789805026824435800, 674182879233370200, 911734221259975800),
  (786381320847639500, 683250034407978300, 917893148547090300), (783037364168252800, 692373381916444800, 923533180269037400),
  (779800180499306400, 701537998364579100, 928660659348633200), (776696220782355300, 710728913585061000, 933283741691738300),
  (773751268013278400, 719931164817566900, 937412365149662900), (770990344220756500, 729129850981043700, 941058212116369300),
  (768437619924423500, 738310186852044500, 944234665866762000), (766116326392683800, 747457556962632400, 946956760763656200),
  (764048671012121800, 756557569031546700, 949241126481987100), (762255756071306900, 765596106743133700, 951105926419388000),
  (760757501251680500, 774559381689937400, 952570790482374500), (759572570107064100, 783433984296863700, 953656742456939100),
  (758718300801261800, 792206933547433800, 954386122191340300), (758210641360208200, 800865725335842200, 954782502837186600),
  (758064089681220300, 809398379272323300, 954870603412516400), (758291638527159000, 817793483773690200, 954676196967399700),
  (758904725717761700, 826040239275836800, 954226014648572300), (759913189714087600, 834128499410474100, 953547645974720200),
  (761325230775008000, 842048809994379100, 952669435648191800), (763147377846979700, 849792445685979800, 951620377242091600),
  (765384461330060200, 857351444171124500, 950430004113850500), (768039591844279200, 864718637747406400, 949128277907435100),
  (771114145101142500, 871887682184393300, 947745475016303500), (774607752965277200, 878853082745519800, 946312071388012800),
  (778518300771068000, 885610217266234000, 944858626058995500), (782841930938682000, 892155356192197500, 943415663814412400),
  (787573052913150500, 898485679490915700, 942013557373143200), (792704359429281700, 904599290360074700, 940682409501869200),
  (798226849084145800, 910495225666073400, 939451935464802700), (804129855177786700, 916173463056711300, 938351346216928800),
  (810401080761745000, 921634924702710200, 937409232748632500), (817026639813963700, 926881477633676100, 936653451988260600),
  (823991104437795300, 931915930645200500, 936111014666548700), (831277557962168600, 936742027765041500, 935807975542889400),
  (838867653799592800, 941364438277669700, 935769326388163700), (846741679898633200, 945788743317874900, 936018892112300600),
  (854878628607850400, 950021419055583600, 936579230416881200), (863256271749021600, 954069816505484000, 937471535343986500),
  (871851240678817300, 957942138006469200, 938715545082126400), (880639111100049300, 961647410427251800, 940329454378488500),
  (889594492366207800, 965195455165732900, 942329831893971300), (898691121006301800, 968596855020802700, 944731542823510600),
  (907901958181092900, 971862918026156500, 947547677089138700), (917199290766697700, 975005638346406200, 950789483397065100),
  (926554835747294000, 978037654346218600, 954466309432859000), (935939847585347500, 980972203953369900, 958585548450632000),
  (945325228225422400, 983823077446457800, 963152592492981500), (954681639376304200, 986604567807510600, 968170792458429300),
  (963979616705874700, 989331418788848800, 973641425212239100), (973189685573988400, 992018770852263300, 979563667914859000),
  (982282477920539200, 994682105146838000, 985934579719903000), (991228849918998700, 997337185699539800, 992749090970589600),
  (1000000000000000000, 1000000000000000000, 1000000000000000000)]

/-- `nx_color_map_data_magma`, `src/nx_color_map_data.h:748-1003`. -/
def magmaTable : List (Nat × Nat × Nat) := [
  (1462, 466, 13866), (2258, 1295, 18331), (3279, 2305, 23708), (4512, 3490, 29965), (5950, 4843, 37130),
  (7588, 6356, 44973), (9426, 8022, 52844), (11465, 9828, 60750), (13708, 11771, 68667), (16156, 13840, 76603),
  (18815, 16026, 84584), (21692, 18320, 92610), (24792, 20715, 100676), (28123, 23201, 108787), (31696, 25765, 116965),
  (35520, 28397, 125209), (39608, 31090, 133515), (43830, 33830, 141886), (48062, 36607, 150327), (52320, 39407, 158841),
  (56615, 42160, 167446), (60949, 44794, 176129), (65330, 47318, 184892), (69764, 49726, 193735), (74257, 52017, 202660),
  (78815, 54184, 211667), (83446, 56225, 220755), (88155, 58133, 229922), (92949, 59904, 239164), (97833, 61531, 248477),
  (102815, 63010, 257854), (107899, 64335, 267289), (113094, 65492, 276784), (118405, 66479, 286321), (123833, 67295, 295879),
  (129380, 67935, 305443), (135053, 68391, 315000), (140858, 68654, 324538), (146785, 68738, 334011), (152839, 68637, 343404),
  (159018, 68354, 352688), (165308, 67911, 361816), (171713, 67305, 370771), (178212, 66576, 379497), (184801, 65732, 387973),
  (191460, 64818, 396152), (198177, 63862, 404009), (204935, 62907, 411514), (211718, 61992, 418647), (218512, 61158, 425392),
  (225302, 60445, 431742), (232077, 59889, 437695), (238826, 59517, 443256), (245543, 59352, 448436), (252220, 59415, 453248),
  (258857, 59706, 457710), (265447, 60237, 461840), (271994, 60994, 465660), (278493, 61978, 469190), (284951, 63168, 472451),
  (291366, 64553, 475462), (297740, 66117, 478243), (304081, 67835, 480812), (310382, 69702, 483186), (316654, 71690, 485380),
  (322899, 73782, 487408), (329114, 75972, 489287), (335308, 78236, 491024), (341482, 80564, 492631), (347636, 82946, 494121),
  (353773, 85373, 495501), (359898, 87831, 496778), (366012, 90314, 497960), (372116, 92816, 499053), (378211, 95332, 500067),
  (384299, 97855, 501002), (390384, 100379, 501864), (396467, 102902, 502658), (402548, 105420, 503386), (408629, 107930, 504052),
  (414709, 110431, 504662), (420791, 112920, 505215), (426877, 115395, 505714), (432967, 117855, 506160), (439062, 120298, 506555),
  (445163, 122724, 506901), (451271, 125132, 507198), (457386, 127522, 507448), (463508, 129893, 507652), (469640, 132245, 507809),
  (475780, 134577, 507921), (481929, 136891, 507989), (488088, 139186, 508011), (494258, 141462, 507988), (500438, 143719, 507920),
  (506629, 145958, 507806), (512831, 148179, 507648), (519045, 150383, 507443), (525270, 152569, 507192), (531507, 154739, 506895),
  (537755, 156894, 506551), (544015, 159033, 506159), (550287, 161158, 505719), (556571, 163269, 505230), (562866, 165368, 504692),
  (569172, 167454, 504105), (575490, 169530, 503466), (581819, 171596, 502777), (588158, 173652, 502035), (594508, 175701, 501241),
  (600868, 177743, 500394), (607238, 179779, 499492), (613617, 181811, 498536), (620005, 183840, 497524), (626401, 185867, 496456),
  (632805, 187893, 495332), (639216, 189921, 494150), (645633, 191952, 492910), (652056, 193986, 491611), (658483, 196027, 490253),
  (664915, 198075, 488836), (671349, 200133, 487358), (677786, 202203, 485819), (684224, 204286, 484219), (690661, 206384, 482558),
  (697098, 208501, 480835), (703532, 210638, 479049), (709962, 212797, 477201), (716387, 214982, 475290), (722805, 217194, 473316),
  (729216, 219437, 471279), (735616, 221713, 469180), (742004, 224025, 467018), (748378, 226377, 464794), (754737, 228772, 462509),
  (761077, 231214, 460162), (767398, 233705, 457755), (773695, 236249, 455289), (779968, 238851, 452765), (786212, 241514, 450184),
  (792427, 244242, 447543), (798608, 247040, 444848), (804752, 249911, 442102), (810855, 252861, 439305), (816914, 255895, 436461),
  (822926, 259016, 433573), (828886, 262229, 430644), (834791, 265540, 427671), (840636, 268953, 424666), (846416, 272473, 421631),
  (852126, 276106, 418573), (857763, 279857, 415496), (863320, 283729, 412403), (868793, 287728, 409303), (874176, 291859, 406205),
  (879464, 296125, 403118), (884651, 300530, 400047), (889731, 305079, 397002), (894700, 309773, 393995), (899552, 314616, 391037),
  (904281, 319610, 388137), (908884, 324755, 385308), (913354, 330052, 382563), (917689, 335500, 379915), (921884, 341098, 377376),
  (925937, 346844, 374959), (929845, 352734, 372677), (933606, 358764, 370541), (937221, 364929, 368567), (940687, 371224, 366762),
  (944006, 377643, 365136), (947180, 384178, 363701), (950210, 390820, 362468), (953099, 397563, 361438), (955849, 404400, 360619),
  (958464, 411324, 360014), (960949, 418323, 359630), (963310, 425390, 359469), (965549, 432519, 359529), (967671, 439703, 359810),
  (969680, 446936, 360311), (971582, 454210, 361030), (973381, 461520, 361965), (975082, 468861, 363111), (976690, 476226, 364466),
  (978210, 483612, 366025), (979645, 491014, 367783), (981000, 498428, 369734), (982279, 505851, 371874), (983485, 513280, 374198),
  (984622, 520713, 376698), (985693, 528148, 379371), (986700, 535582, 382210), (987646, 543015, 385210), (988533, 550446, 388365),
  (989363, 557873, 391671), (990138, 565296, 395122), (990871, 572706, 398714), (991558, 580107, 402441), (992196, 587502, 406299),
  (992785, 594891, 410283), (993326, 602275, 414390), (993834, 609644, 418613), (994309, 616999, 422950), (994738, 624350, 427397),
  (995122, 631696, 431951), (995480, 639027, 436607), (995810, 646344, 441361), (996096, 653659, 446213), (996341, 660969, 451160),
  (996580, 668256, 456192), (996775, 675541, 461314), (996925, 682828, 466526), (997077, 690088, 471811), (997186, 697349, 477182),
  (997254, 704611, 482635), (997325, 711848, 488154), (997351, 719089, 493755), (997351, 726324, 499428), (997341, 733545, 505167),
  (997285, 740772, 510983), (997228, 747981, 516859), (997138, 755190, 522806), (997019, 762398, 528821), (996898, 769591, 534892),
  (996727, 776795, 541039), (996571, 783977, 547233), (996369, 791167, 553499), (996162, 798348, 559820), (995932, 805527, 566202),
  (995680, 812706, 572645), (995424, 819875, 579140), (995131, 827052, 585701), (994851, 834213, 592307), (994524, 841387, 598983),
  (994222, 848540, 605696), (993866, 855711, 612482), (993545, 862859, 619299), (993170, 870024, 626189), (992831, 877168, 633109),
  (992440, 884330, 640099), (992089, 891470, 647116), (991688, 898627, 654202), (991332, 905763, 661309), (990930, 912915, 668481),
  (990570, 920049, 675675), (990175, 927196, 682926), (989815, 934329, 690198), (989434, 941470, 697519), (989077, 948604, 704863),
  (988717, 955742, 712242), (988367, 962878, 719649), (988033, 970012, 727077), (987691, 977154, 734536), (987387, 984288, 742002),
  (987053, 991438, 749504)]

end Nx

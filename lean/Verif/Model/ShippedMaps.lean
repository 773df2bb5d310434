/-
Data: the map files shipped with the package and the plugins reading them.

Written by `tools/shipped_maps.py` from /repo/appletree/maps/*.json and /repo/appletree/plugins/*.py.  Numbers are integers
over a common power of ten, that is the decimals in the files without rounding to binary.
-/
import Verif.Model.MapFile
import Verif.Model.Shipped

namespace Verif.MapFile
open Verif Verif.Interp

/-- A file as decimals: coordinates and values of a point map, or edges, shape and values (last axis fastest) of a grid. -/
inductive Raw
  | point (name : String) (cden : Nat) (coords : List Int) (vden : Nat) (vals : List Int)
  | grid (names : List String) (cden : Nat) (lowers uppers : List Int) (shape : List Nat) (vden : Nat) (vals : List Int)

/-- The decimals `k / den`. -/
noncomputable def decimals (den : Nat) (l : List Int) : List ℝ := l.map (fun k : Int => (k : ℝ) / (den : ℝ))

/-- The parsed file (utils.py 120-124).  All shipped files have the type point or regbin, which the script checks. -/
noncomputable def Raw.file : Raw → File
  | .point name cden coords vden vals => ⟨some (.one "point"), some (.one name), .point (decimals cden coords) (decimals vden vals)⟩
  | .grid names cden lowers uppers shape vden vals =>
    let ax := fun i : Nat => (⟨((lowers.getD i 0 : Int) : ℝ) / cden, ((uppers.getD i 0 : Int) : ℝ) / cden⟩ : Axis ℝ)
    ⟨some (.one "regbin"), some (.axes names),
      match shape with
      | [n0, n1] => .reg2 (ax 0) (ax 1) ⟨n0, n1, fun i j => ((vals.getD (i * n1 + j) 0 : Int) : ℝ) / vden⟩
      | [n0, n1, n2] => .reg3 (ax 0) (ax 1) (ax 2) ⟨n0, n1, n2, fun i j k => ((vals.getD ((i * n1 + j) * n2 + k) 0 : Int) : ℝ) / vden⟩
      | _ => .reg0⟩

/-- A map declared by a plugin: the plugin, the name of the configuration, the method, the default files (three for a
`SigmaMap`) and the name of the scaler. -/
structure Use where
  plugin : Comp.Plugin
  name : String
  method : String
  files : List String
  scaler : Option String
deriving DecidableEq

/-- maps/_3fold_recon_eff.json. -/
def file_3fold_recon_eff : Raw :=
  .point "hit" 10
  [0, 10, 20, 30, 40, 50]
  10
  [0, 0, 0, 10, 10, 10]

/-- maps/_efield_map.json. -/
def file_efield_map : Raw :=
  .grid ["r", "z"] 100 [0, -14865] [6640, 0] [5, 5] 10
  [230, 230, 230, 230, 230, 230, 230, 230, 230, 230, 230, 230, 230, 230, 230, 230, 230, 230, 230, 230, 230, 230,
   230, 230, 230]

/-- maps/_elife.json. -/
def file_elife : Raw :=
  .point "cdf" 10
  [0, 5, 10]
  10
  [120000, 120000, 120000]

/-- maps/_gas_gain_relative.json. -/
def file_gas_gain_relative : Raw :=
  .grid ["x", "y"] 1 [-70, -70] [70, 70] [5, 5] 10
  [10, 10, 10, 10, 10, 10, 10, 10, 10, 10, 10, 10, 10, 10, 10, 10, 10, 10, 10, 10, 10, 10, 10, 10, 10]

/-- maps/_nr_ly.json. -/
def file_nr_ly : Raw :=
  .point "recoil energy" 100000000000000000
  [10000000000000000, 11980000000000000, 13960000000000000, 15940000000000001, 17920000000000003,
   19900000000000000, 21880000000000002, 23860000000000000, 25840000000000000, 27820000000000000,
   29800000000000004, 31780000000000000, 33760000000000000, 35740000000000005, 37720000000000000,
   39700000000000000, 41680000000000006, 43660000000000000, 45640000000000003, 47620000000000007,
   49600000000000000, 51580000000000000, 53560000000000010, 55540000000000000, 57520000000000000,
   59500000000000010, 61480000000000000, 63460000000000000, 65440000000000000, 67420000000000000,
   69400000000000010, 71380000000000000, 73360000000000000, 75340000000000010, 77320000000000000,
   79300000000000000, 81280000000000010, 83260000000000000, 85240000000000000, 87220000000000010,
   89200000000000000, 91180000000000000, 93160000000000010, 95140000000000000, 97120000000000010,
   99100000000000010, 101080000000000010, 103060000000000020, 105040000000000020, 107020000000000000,
   109000000000000000, 110980000000000010, 112960000000000020, 114940000000000020, 116920000000000020,
   118900000000000030, 120880000000000000, 122860000000000010, 124840000000000020, 126820000000000020,
   128800000000000030, 130780000000000030, 132760000000000010, 134740000000000020, 136720000000000020,
   138700000000000020, 140680000000000030, 142660000000000000, 144640000000000010, 146620000000000020,
   148600000000000020, 150580000000000020, 152560000000000030, 154540000000000000, 156520000000000010,
   158500000000000020, 160480000000000020, 162460000000000030, 164440000000000030, 166420000000000010,
   168400000000000020, 170380000000000020, 172360000000000020, 174340000000000030, 176320000000000030,
   178300000000000010, 180280000000000020, 182260000000000020, 184240000000000030, 186220000000000030,
   188200000000000030, 190180000000000020, 192160000000000020, 194140000000000020, 196120000000000030,
   198100000000000030, 200080000000000040, 202060000000000000, 204040000000000000, 206020000000000000,
   208000000000000000, 209980000000000000, 211960000000000000, 213940000000000000, 215920000000000020,
   217900000000000030, 219880000000000030, 221860000000000030, 223840000000000040, 225820000000000040,
   227800000000000050, 229780000000000000, 231760000000000000, 233740000000000000, 235720000000000000,
   237700000000000020, 239680000000000030, 241660000000000030, 243640000000000030, 245620000000000040,
   247600000000000040, 249580000000000050, 251560000000000050, 253540000000000000, 255520000000000000,
   257500000000000000, 259480000000000000, 261460000000000030, 263440000000000030, 265420000000000030,
   267400000000000040, 269380000000000040, 271360000000000050, 273340000000000050, 275320000000000000,
   277300000000000000, 279280000000000000, 281260000000000000, 283240000000000030, 285220000000000030,
   287200000000000030, 289180000000000040, 291160000000000040, 293140000000000040, 295120000000000050,
   297100000000000050, 299080000000000000, 301060000000000000, 303040000000000000, 305020000000000020,
   307000000000000030, 308980000000000030, 310960000000000040, 312940000000000040, 314920000000000040,
   316900000000000050, 318880000000000050, 320860000000000060, 322840000000000000, 324820000000000000,
   326800000000000020, 328780000000000030, 330760000000000030, 332740000000000040, 334720000000000040,
   336700000000000040, 338680000000000050, 340660000000000050, 342640000000000060, 344620000000000000,
   346600000000000000, 348580000000000020, 350560000000000030, 352540000000000030, 354520000000000040,
   356500000000000040, 358480000000000040, 360460000000000050, 362440000000000050, 364420000000000050,
   366400000000000060, 368380000000000000, 370360000000000020, 372340000000000030, 374320000000000030,
   376300000000000030, 378280000000000040, 380260000000000040, 382240000000000050, 384220000000000050,
   386200000000000050, 388180000000000060, 390160000000000060, 392140000000000000, 394120000000000030,
   396100000000000030, 398080000000000030, 400060000000000000, 402040000000000000, 404020000000000050,
   406000000000000050, 407980000000000050, 409960000000000100, 411940000000000000, 413920000000000000,
   415900000000000000, 417880000000000000, 419860000000000000, 421840000000000000, 423820000000000000,
   425800000000000000, 427780000000000000, 429760000000000000, 431740000000000000, 433720000000000000,
   435700000000000000, 437680000000000000, 439660000000000000, 441640000000000000, 443620000000000000,
   445600000000000000, 447580000000000040, 449560000000000000, 451540000000000000, 453520000000000000,
   455500000000000000, 457480000000000000, 459460000000000000, 461440000000000000, 463420000000000000,
   465400000000000000, 467380000000000000, 469360000000000000, 471340000000000000, 473320000000000000,
   475300000000000000, 477280000000000000, 479260000000000000, 481240000000000000, 483220000000000000,
   485200000000000000, 487180000000000000, 489160000000000000, 491140000000000000, 493120000000000050,
   495100000000000000, 497080000000000000, 499060000000000000, 501040000000000000, 503020000000000000,
   505000000000000000, 506980000000000000, 508960000000000000, 510940000000000000, 512920000000000000,
   514900000000000000, 516880000000000000, 518860000000000000, 520840000000000000, 522820000000000000,
   524800000000000000, 526780000000000000, 528760000000000000, 530740000000000000, 532720000000000000,
   534700000000000000, 536680000000000050, 538660000000000050, 540640000000000000, 542620000000000000,
   544600000000000000, 546580000000000000, 548560000000000000, 550540000000000000, 552520000000000000,
   554500000000000000, 556480000000000000, 558460000000000000, 560440000000000000, 562420000000000000,
   564400000000000000, 566380000000000000, 568360000000000000, 570340000000000000, 572320000000000000,
   574300000000000000, 576280000000000000, 578260000000000000, 580240000000000040, 582220000000000050,
   584200000000000050, 586180000000000000, 588160000000000000, 590140000000000000, 592120000000000000,
   594100000000000000, 596080000000000000, 598060000000000000, 600040000000000000, 602020000000000000,
   604000000000000000, 605980000000000000, 607960000000000000, 609940000000000000, 611920000000000000,
   613900000000000000, 615880000000000000, 617860000000000000, 619840000000000000, 621820000000000000,
   623800000000000000, 625780000000000050, 627760000000000050, 629740000000000060, 631720000000000100,
   633700000000000000, 635680000000000000, 637660000000000000, 639640000000000000, 641620000000000000,
   643600000000000000, 645580000000000000, 647560000000000000, 649540000000000000, 651520000000000000,
   653500000000000000, 655480000000000000, 657460000000000000, 659440000000000000, 661420000000000000,
   663400000000000000, 665380000000000000, 667360000000000000, 669340000000000050, 671320000000000050,
   673300000000000050, 675280000000000100, 677260000000000100, 679240000000000000, 681220000000000000,
   683200000000000000, 685180000000000000, 687160000000000000, 689140000000000000, 691120000000000000,
   693100000000000000, 695080000000000000, 697060000000000000, 699040000000000000, 701020000000000000,
   703000000000000000, 704980000000000000, 706960000000000000, 708940000000000000, 710920000000000000,
   712900000000000040, 714880000000000050, 716860000000000050, 718840000000000100, 720820000000000100,
   722800000000000100, 724780000000000000, 726760000000000000, 728740000000000000, 730720000000000000,
   732700000000000000, 734680000000000000, 736660000000000000, 738640000000000000, 740620000000000000,
   742600000000000000, 744580000000000000, 746560000000000000, 748540000000000000, 750520000000000000,
   752500000000000000, 754480000000000000, 756460000000000000, 758440000000000050, 760420000000000050,
   762400000000000060, 764380000000000100, 766360000000000100, 768340000000000100, 770320000000000100,
   772300000000000000, 774280000000000000, 776260000000000000, 778240000000000000, 780220000000000000,
   782200000000000000, 784180000000000000, 786160000000000000, 788140000000000000, 790120000000000000,
   792100000000000000, 794080000000000000, 796060000000000000, 798040000000000000, 800020000000000100,
   802000000000000100, 803980000000000100, 805960000000000100, 807940000000000100, 809920000000000200,
   811900000000000000, 813880000000000000, 815860000000000000, 817840000000000000, 819820000000000000,
   821800000000000000, 823780000000000000, 825760000000000000, 827740000000000000, 829720000000000000,
   831700000000000000, 833680000000000000, 835660000000000000, 837640000000000000, 839620000000000000,
   841600000000000000, 843580000000000000, 845560000000000000, 847540000000000000, 849520000000000000,
   851500000000000000, 853480000000000000, 855460000000000000, 857440000000000000, 859420000000000000,
   861400000000000000, 863380000000000000, 865360000000000000, 867340000000000000, 869320000000000100,
   871300000000000100, 873280000000000100, 875260000000000100, 877240000000000100, 879220000000000100,
   881200000000000100, 883180000000000100, 885160000000000100, 887140000000000000, 889120000000000000,
   891100000000000000, 893080000000000000, 895060000000000000, 897040000000000000, 899020000000000000,
   901000000000000000, 902980000000000000, 904960000000000000, 906940000000000000, 908920000000000000,
   910900000000000000, 912880000000000000, 914860000000000000, 916840000000000000, 918820000000000000,
   920800000000000000, 922780000000000000, 924760000000000000, 926740000000000000, 928720000000000000,
   930700000000000000, 932680000000000000, 934660000000000000, 936640000000000000, 938620000000000000,
   940600000000000000, 942580000000000000, 944560000000000000, 946540000000000000, 948520000000000000,
   950500000000000000, 952480000000000000, 954460000000000000, 956440000000000100, 958420000000000100,
   960400000000000100, 962380000000000100, 964360000000000100, 966340000000000100, 968320000000000100,
   970300000000000100, 972280000000000100, 974260000000000100, 976240000000000100, 978220000000000000,
   980200000000000000, 982180000000000000, 984160000000000000, 986140000000000000, 988120000000000000,
   990100000000000000, 992080000000000000, 994060000000000000, 996040000000000000, 998020000000000000,
   1000000000000000000]
  10000000000000000
  [0, 0, 0, 0, 0, 0, 24514653126076977, 26604837656389835, 28448984505509400, 30061243511255307,
   31462011511051910, 32674594262588950, 33722876644356963, 34629820104445246, 35416587764625350,
   36102116084984670, 36702985533097614, 37233478488961205, 37705744402023740, 38130017760219410,
   38514853639093590, 38867359335231666, 39193410002104887, 39497842402588157, 39784624796552897,
   40057003312025925, 40317626433033620, 40568649850865100, 40811824125144010, 41048567558346525,
   41280026513606120, 41507125170915650, 41730606463686590, 41951065690525970, 42168978068999780,
   42384721294886810, 42598593993545130, 42810830798651230, 43021614665622530, 43231086919847980,
   43439355450668050, 43646501388216070, 43852584539351010, 44057647808847320, 44261720790928205,
   44464822682569570, 44666964642454790, 44868151696926830, 45068384275861990, 45267659446327790,
   45465971899574680, 45663314736841080, 45859680091216830, 46055059616069530, 46249444865021350,
   46442827583945670, 46635199931749660, 46826554643673600, 47016885148348060, 47206185647807220,
   47394451167979250, 47581677585798410, 47767861637951645, 47953000915344850, 48137093846609020,
   48320139673341390, 48502138419261130, 48683090855035890, 48862998460190280, 49041863383221500,
   49219688400815630, 49396476876866770, 49572232721846605, 49746960352944120, 49920664655292760,
   50093350944518535, 50265024930775350, 50435692684378500, 50605360603105430, 50774035381196390,
   50941723980062270, 51108433600684195, 51274171657673880, 51438945754950900, 51602763662984630,
   51765633297540960, 51927562699870590, 52088560018272490, 52248633490964470, 52407791430193380,
   52566042207516945, 52723394240191710, 52879855978601500, 53035435894664760, 53190142471160340,
   53343984191913480, 53496969532787750, 53649106953429370, 53800404889715190, 53950871746856235,
   54100515893112570, 54249345654077820, 54397369307492910, 54544595078552490, 54691031135669020,
   54836685586661070, 54981566475336420, 55125681778439730, 55269039402939020, 55411647183625300,
   55553512881002130, 55694644179443110, 55835048685596975, 55974733927021100, 56113707351025940,
   56251976323713790, 56389548129196390, 56526429968977280, 56662628961485450, 56798152141748100,
   56933006461190740, 57067198787554300, 57200735904919195, 57333624513826910, 57465871231490940,
   57597482592089100, 57728465047129490, 57858824965883770, 57988568635881110, 58117702263457260,
   58246231974352870, 58374163814356520, 58501503749987505, 58628257669214310, 58754431382204420,
   58880030622102260, 59005061045831810, 59129528234920020, 59253437696339450, 59376794863366230,
   59499605096451770, 59621873684105150, 59743605843785100, 59864806722798600, 59985481399205140,
   60105634882724805, 60225272115648260, 60344397973747980, 60463017267189120, 60581134741438890,
   60698755078173260, 60815882896180590, 60932522752260745, 61048679142119110, 61164356501255100,
   61279559205843890, 61394291573611670, 61508557864702770, 61622362282539610, 61735708974673600,
   61848602033627790, 61961045497730190, 62073043351938150, 62184599528652670, 62295717908523350,
   62406402321243200, 62516656546333484, 62626484313918170, 62735889305488260, 62844875154655300,
   62953445447895175, 63061603725280610, 63169353481203650, 63276698165087320, 63383641182087160,
   63490185893781710, 63596335618853120, 63702093633756760, 63807463173381070, 63912447431696540,
   64017049562394980, 64121272679518060, 64225119858076540, 64328594134658825, 64431698508029870,
   64534435939720790, 64636809354607925, 64738821641483190, 64840475653614420, 64941774209296710,
   65042720092394330, 65143316052873860, 65243564807327930, 65343469039490530, 65443031400743420,
   65542254510613840, 65641140957264110, 65739693297972420, 65837914059605910, 65935805739085180,
   66033370803841270, 66130611692264560, 66227530814145970, 66324130551110745, 66420413257044630,
   66516381258512665, 66612036855171075, 66707382320171670, 66802419900559560, 66897151817663800,
   66991580267481710, 67085707421055980, 67179535424845880, 67273066401091470, 67366302448172215,
   67459245640958860, 67551898031159530, 67644261647659890, 67736338496857270, 67828130562989440,
   67919639808457140, 68010868174141880, 68101817579717480, 68192489923956945, 68282887085033750,
   68373010920817970, 68462863269167720, 68552445948215190, 68641760756648020, 68730809473986030,
   68819593860853070, 68908115659244400, 68996376592789340, 69084378367009910, 69172122669574650,
   69259611170548470, 69346845522638210, 69433827361434140, 69520558305647350, 69607039957343290,
   69693273902171290, 69779261709590270, 69865004933090900, 69950505110413860, 70035763763764590,
   70120782400024570, 70205562510958900, 70290105573420610, 70374413049551930, 70458486386981480,
   70542327019019115, 70625936364847030, 70709315829707920, 70792466805090180, 70875390668910000,
   70958088785690600, 71040562506738430, 71122813170316560, 71204842101815730, 71286650613921860,
   71368240006781670, 71449611568165030, 71530766573625240, 71611706286656440, 71692431958848620,
   71772944830040300, 71853246128468580, 71933337070917050, 72013218862861220, 72092892698611860,
   72172359761455760, 72251621223794860, 72330678247282620, 72409531982958680, 72488183571381290,
   72566634142757730, 72644884817072640, 72722936704214600, 72800790904100460, 72878448506798180,
   72955910592647340, 73033178232378155, 73110252487228550, 73187134409059580, 73263825040468860,
   73340325414902670, 73416636556765990, 73492759481531100, 73568695195844720, 73644444697633010,
   73720008976205730, 73795389012358150, 73870585778472150, 73945600238615180, 74020433348638250,
   74095086056272200, 74169559301222590, 74243854015263590, 74317971122329800, 74391911538607385,
   74465676172623570, 74539265925334820, 74612681690213960, 74685924353335890, 74758994793462070,
   74831893882123840, 74904622483704580, 74977181455520680, 75049571647901180, 75121793904266710,
   75193849061206930, 75265737948556880, 75337461389472660, 75409020200505610, 75480415191675570,
   75551647166543345, 75622716922281790, 75693625249746320, 75764372933544060, 75834960752102280,
   75905389477735880, 75975659876713810, 76045772709324650, 76115728729941480, 76185528687085435,
   76255173323488880, 76324663376157460, 76393999576431260, 76463182650045310, 76532213317189250,
   76601092292566160, 76669820285450365, 76738397999745125, 76806826134038730, 76875105381660400,
   76943236430735410, 77011219964239310, 77079056660051240, 77146747191007250, 77214292224952175,
   77281692424791140, 77348948448540520, 77416060949377980, 77483030575691980, 77549857971130760,
   77616543774650510, 77683088620562910, 77749493138582210, 77815757953871680, 77881883687089350,
   77947870954433210, 78013720367685880, 78079432534258855, 78145008057235770, 78210447535415470,
   78275751563354560, 78340920731409140, 78405955625776285, 78470856828534940, 78535624917686090,
   78600260467192795, 78664764047019515, 78729136223170900, 78793377557730130, 78857488608897000,
   78921469931025340, 78985322074659860, 79049045586572730, 79112641009799870, 79176108883676310,
   79239449743871580, 79302664122424530, 79365752547777600, 79428715544810770, 79491553634875280,
   79554267335826680, 79616857162057360, 79679323624529330, 79741667230805930, 79803888485083405,
   79865987888222340, 79927965937778200, 79989823128032200, 80051559950021060, 80113176891567100,
   80174674437307400, 80236053068723030, 80297313264167890, 80358455498896880, 80419480245094150,
   80480387971900860, 80541179145442550, 80601854228856310, 80662413682317520, 80722857963066460,
   80783187525434400, 80843402820869630, 80903504297963000, 80963492402473080, 81023367577351520,
   81083130262767540, 81142780896132490, 81202319912124030, 81261747742710050, 81321064817172260,
   81380271562129830, 81439368401562130, 81498355756831860, 81557234046707720, 81616003687386570,
   81674665092515700, 81733218673214640, 81791664838096770, 81850003993290950, 81908236542462300,
   81966362886833490, 82024383425205250, 82082298553976800, 82140108667166450, 82197814156431170,
   82255415411086800, 82312912818127460, 82370306762245060, 82427597625848360, 82484785789081980,
   82541871629845470, 82598855523811500, 82655737844444400, 82712518963018450, 82769199248635830,
   82825779068244250, 82882258786655000, 82938638766559800, 82994919368548620, 83051100951126330,
   83107183870730000, 83163168481745200, 83219055136522860, 83274844185395480, 83330535976693470,
   83386130856761010, 83441629169972200, 83497031258746390, 83552337463564060, 83607548122982200,
   83662663573649300, 83717684150320600, 83772610185872980, 83827442011319880, 83882179955825650,
   83936824346720200, 83991375509513400, 84045833767909070, 84100199443819150, 84154472857377700,
   84208654326954410, 84262744169168450, 84316742698901980, 84370650229313230, 84424467071850110,
   84478193536263020, 84531829930617930, 84585376561309250, 84638833733072510, 84692201748996880,
   84745480910537840, 84798671517529250, 84851773868195810, 84904788259165060, 84957714985479400,
   85010554340607950, 85063306616458250, 85115972103388100, 85168551090216840, 85221043864236990,
   85273450711225460, 85325771915454700, 85378007759703980, 85430158525270130, 85482224491978760,
   85534205938194780, 85586103140833070, 85637916375369300, 85689645915850240, 85741292034904240,
   85792855003751250, 85844335092213500, 85895732568725230, 85947047700342660, 85998280752754150,
   86049431990289980, 86100501675931760, 86151490071322550, 86202397436775970, 86253224031286000,
   86303970112536120, 86354635936908690, 86405221759494210, 86455727834100330, 86506154413260960,
   86556501748245190]

/-- maps/_nr_qy.json. -/
def file_nr_qy : Raw :=
  .point "recoil energy" 100000000000000000
  [10000000000000000, 11980000000000000, 13960000000000000, 15940000000000001, 17920000000000003,
   19900000000000000, 21880000000000002, 23860000000000000, 25840000000000000, 27820000000000000,
   29800000000000004, 31780000000000000, 33760000000000000, 35740000000000005, 37720000000000000,
   39700000000000000, 41680000000000006, 43660000000000000, 45640000000000003, 47620000000000007,
   49600000000000000, 51580000000000000, 53560000000000010, 55540000000000000, 57520000000000000,
   59500000000000010, 61480000000000000, 63460000000000000, 65440000000000000, 67420000000000000,
   69400000000000010, 71380000000000000, 73360000000000000, 75340000000000010, 77320000000000000,
   79300000000000000, 81280000000000010, 83260000000000000, 85240000000000000, 87220000000000010,
   89200000000000000, 91180000000000000, 93160000000000010, 95140000000000000, 97120000000000010,
   99100000000000010, 101080000000000010, 103060000000000020, 105040000000000020, 107020000000000000,
   109000000000000000, 110980000000000010, 112960000000000020, 114940000000000020, 116920000000000020,
   118900000000000030, 120880000000000000, 122860000000000010, 124840000000000020, 126820000000000020,
   128800000000000030, 130780000000000030, 132760000000000010, 134740000000000020, 136720000000000020,
   138700000000000020, 140680000000000030, 142660000000000000, 144640000000000010, 146620000000000020,
   148600000000000020, 150580000000000020, 152560000000000030, 154540000000000000, 156520000000000010,
   158500000000000020, 160480000000000020, 162460000000000030, 164440000000000030, 166420000000000010,
   168400000000000020, 170380000000000020, 172360000000000020, 174340000000000030, 176320000000000030,
   178300000000000010, 180280000000000020, 182260000000000020, 184240000000000030, 186220000000000030,
   188200000000000030, 190180000000000020, 192160000000000020, 194140000000000020, 196120000000000030,
   198100000000000030, 200080000000000040, 202060000000000000, 204040000000000000, 206020000000000000,
   208000000000000000, 209980000000000000, 211960000000000000, 213940000000000000, 215920000000000020,
   217900000000000030, 219880000000000030, 221860000000000030, 223840000000000040, 225820000000000040,
   227800000000000050, 229780000000000000, 231760000000000000, 233740000000000000, 235720000000000000,
   237700000000000020, 239680000000000030, 241660000000000030, 243640000000000030, 245620000000000040,
   247600000000000040, 249580000000000050, 251560000000000050, 253540000000000000, 255520000000000000,
   257500000000000000, 259480000000000000, 261460000000000030, 263440000000000030, 265420000000000030,
   267400000000000040, 269380000000000040, 271360000000000050, 273340000000000050, 275320000000000000,
   277300000000000000, 279280000000000000, 281260000000000000, 283240000000000030, 285220000000000030,
   287200000000000030, 289180000000000040, 291160000000000040, 293140000000000040, 295120000000000050,
   297100000000000050, 299080000000000000, 301060000000000000, 303040000000000000, 305020000000000020,
   307000000000000030, 308980000000000030, 310960000000000040, 312940000000000040, 314920000000000040,
   316900000000000050, 318880000000000050, 320860000000000060, 322840000000000000, 324820000000000000,
   326800000000000020, 328780000000000030, 330760000000000030, 332740000000000040, 334720000000000040,
   336700000000000040, 338680000000000050, 340660000000000050, 342640000000000060, 344620000000000000,
   346600000000000000, 348580000000000020, 350560000000000030, 352540000000000030, 354520000000000040,
   356500000000000040, 358480000000000040, 360460000000000050, 362440000000000050, 364420000000000050,
   366400000000000060, 368380000000000000, 370360000000000020, 372340000000000030, 374320000000000030,
   376300000000000030, 378280000000000040, 380260000000000040, 382240000000000050, 384220000000000050,
   386200000000000050, 388180000000000060, 390160000000000060, 392140000000000000, 394120000000000030,
   396100000000000030, 398080000000000030, 400060000000000000, 402040000000000000, 404020000000000050,
   406000000000000050, 407980000000000050, 409960000000000100, 411940000000000000, 413920000000000000,
   415900000000000000, 417880000000000000, 419860000000000000, 421840000000000000, 423820000000000000,
   425800000000000000, 427780000000000000, 429760000000000000, 431740000000000000, 433720000000000000,
   435700000000000000, 437680000000000000, 439660000000000000, 441640000000000000, 443620000000000000,
   445600000000000000, 447580000000000040, 449560000000000000, 451540000000000000, 453520000000000000,
   455500000000000000, 457480000000000000, 459460000000000000, 461440000000000000, 463420000000000000,
   465400000000000000, 467380000000000000, 469360000000000000, 471340000000000000, 473320000000000000,
   475300000000000000, 477280000000000000, 479260000000000000, 481240000000000000, 483220000000000000,
   485200000000000000, 487180000000000000, 489160000000000000, 491140000000000000, 493120000000000050,
   495100000000000000, 497080000000000000, 499060000000000000, 501040000000000000, 503020000000000000,
   505000000000000000, 506980000000000000, 508960000000000000, 510940000000000000, 512920000000000000,
   514900000000000000, 516880000000000000, 518860000000000000, 520840000000000000, 522820000000000000,
   524800000000000000, 526780000000000000, 528760000000000000, 530740000000000000, 532720000000000000,
   534700000000000000, 536680000000000050, 538660000000000050, 540640000000000000, 542620000000000000,
   544600000000000000, 546580000000000000, 548560000000000000, 550540000000000000, 552520000000000000,
   554500000000000000, 556480000000000000, 558460000000000000, 560440000000000000, 562420000000000000,
   564400000000000000, 566380000000000000, 568360000000000000, 570340000000000000, 572320000000000000,
   574300000000000000, 576280000000000000, 578260000000000000, 580240000000000040, 582220000000000050,
   584200000000000050, 586180000000000000, 588160000000000000, 590140000000000000, 592120000000000000,
   594100000000000000, 596080000000000000, 598060000000000000, 600040000000000000, 602020000000000000,
   604000000000000000, 605980000000000000, 607960000000000000, 609940000000000000, 611920000000000000,
   613900000000000000, 615880000000000000, 617860000000000000, 619840000000000000, 621820000000000000,
   623800000000000000, 625780000000000050, 627760000000000050, 629740000000000060, 631720000000000100,
   633700000000000000, 635680000000000000, 637660000000000000, 639640000000000000, 641620000000000000,
   643600000000000000, 645580000000000000, 647560000000000000, 649540000000000000, 651520000000000000,
   653500000000000000, 655480000000000000, 657460000000000000, 659440000000000000, 661420000000000000,
   663400000000000000, 665380000000000000, 667360000000000000, 669340000000000050, 671320000000000050,
   673300000000000050, 675280000000000100, 677260000000000100, 679240000000000000, 681220000000000000,
   683200000000000000, 685180000000000000, 687160000000000000, 689140000000000000, 691120000000000000,
   693100000000000000, 695080000000000000, 697060000000000000, 699040000000000000, 701020000000000000,
   703000000000000000, 704980000000000000, 706960000000000000, 708940000000000000, 710920000000000000,
   712900000000000040, 714880000000000050, 716860000000000050, 718840000000000100, 720820000000000100,
   722800000000000100, 724780000000000000, 726760000000000000, 728740000000000000, 730720000000000000,
   732700000000000000, 734680000000000000, 736660000000000000, 738640000000000000, 740620000000000000,
   742600000000000000, 744580000000000000, 746560000000000000, 748540000000000000, 750520000000000000,
   752500000000000000, 754480000000000000, 756460000000000000, 758440000000000050, 760420000000000050,
   762400000000000060, 764380000000000100, 766360000000000100, 768340000000000100, 770320000000000100,
   772300000000000000, 774280000000000000, 776260000000000000, 778240000000000000, 780220000000000000,
   782200000000000000, 784180000000000000, 786160000000000000, 788140000000000000, 790120000000000000,
   792100000000000000, 794080000000000000, 796060000000000000, 798040000000000000, 800020000000000100,
   802000000000000100, 803980000000000100, 805960000000000100, 807940000000000100, 809920000000000200,
   811900000000000000, 813880000000000000, 815860000000000000, 817840000000000000, 819820000000000000,
   821800000000000000, 823780000000000000, 825760000000000000, 827740000000000000, 829720000000000000,
   831700000000000000, 833680000000000000, 835660000000000000, 837640000000000000, 839620000000000000,
   841600000000000000, 843580000000000000, 845560000000000000, 847540000000000000, 849520000000000000,
   851500000000000000, 853480000000000000, 855460000000000000, 857440000000000000, 859420000000000000,
   861400000000000000, 863380000000000000, 865360000000000000, 867340000000000000, 869320000000000100,
   871300000000000100, 873280000000000100, 875260000000000100, 877240000000000100, 879220000000000100,
   881200000000000100, 883180000000000100, 885160000000000100, 887140000000000000, 889120000000000000,
   891100000000000000, 893080000000000000, 895060000000000000, 897040000000000000, 899020000000000000,
   901000000000000000, 902980000000000000, 904960000000000000, 906940000000000000, 908920000000000000,
   910900000000000000, 912880000000000000, 914860000000000000, 916840000000000000, 918820000000000000,
   920800000000000000, 922780000000000000, 924760000000000000, 926740000000000000, 928720000000000000,
   930700000000000000, 932680000000000000, 934660000000000000, 936640000000000000, 938620000000000000,
   940600000000000000, 942580000000000000, 944560000000000000, 946540000000000000, 948520000000000000,
   950500000000000000, 952480000000000000, 954460000000000000, 956440000000000100, 958420000000000100,
   960400000000000100, 962380000000000100, 964360000000000100, 966340000000000100, 968320000000000100,
   970300000000000100, 972280000000000100, 974260000000000100, 976240000000000100, 978220000000000000,
   980200000000000000, 982180000000000000, 984160000000000000, 986140000000000000, 988120000000000000,
   990100000000000000, 992080000000000000, 994060000000000000, 996040000000000000, 998020000000000000,
   1000000000000000000]
  10000000000000000
  [0, 0, 0, 0, 0, 0, 23996988343171440, 26757041167692246, 29389584467645196, 31879387364333605,
   34218464263881017, 36404387477064530, 38438826185759316, 40326339223228440, 42073413982321080,
   43687725067864220, 45177578716185730, 46551508180295230, 47817988109724880, 48985240400660330,
   50061108831698050, 51052984371530010, 51967767042420260, 52811853553603050, 53591142601495740,
   54311051842129014, 54976542167117030, 55592146149130850, 56161998448195260, 56689866655615920,
   57179181554520770, 57633066139753640, 58054363000133170, 58445659849700355, 58809313121861830,
   59147469626578575, 59462086327354795, 59754948330189075, 60027685197076520, 60281785706640220,
   60518611187325370, 60739407546693650, 60945316115412860, 61137383417757745, 61316569972665830,
   61483758221211010, 61639759668161240, 61785321317327280, 61921131472852320, 62047824971523560,
   62165987904655470, 62276161882108440, 62378847885561495, 62474509753226410, 62563577333746190,
   62646449343025950, 62723495954162720, 62795061147437320, 62861464844467730, 62923004848068800,
   62979958607084760, 63032584823429880, 63081124916763120, 63125804360610360, 63166833902311790,
   63204410677891305, 63238719231804620, 63269932450505810, 63298212417863510, 63323711199649795,
   63346571563600610, 63366927640901290, 63384905534372810, 63400623878117870, 63414194352923605,
   63425722161302940, 63435306465685370, 63443040792934570, 63449013408070840, 63453307659807690,
   63456002300269560, 63457171781040530, 63456886527497330, 63455213193203380, 63452214895981225,
   63447951437136590, 63442479505177100, 63435852865251405, 63428122535427520, 63419336950833140,
   63409542116592800, 63398781750418080, 63387097415634370, 63374528645362660, 63361113058515600,
   63346886468211990, 63331882983165860, 63316135102560445, 63299673804876590, 63282528631107990,
   63264727762761600, 63246298095009600, 63227265305331910, 63207653917961110, 63187487364418360,
   63166788040406750, 63145577359308520, 63123875802513730, 63101702966791950, 63079077608902100,
   63056017687621260, 63032540403361280, 63008662235528190, 62984398977769620, 62959765771244590,
   62934777136040365, 62909447000853080, 62883788731039650, 62857815155141990, 62831538589977365,
   62804970864381770, 62778123341688400, 62751006941016770, 62723632157443550, 62696009081121430,
   62668147415407685, 62640056494060605, 62611745297557420, 62583222468584720, 62554496326748560,
   62525574882548650, 62496465850657970, 62467176662547150, 62437714478489730, 62408086198982940,
   62378298475615575, 62348357721413940, 62318270120693440, 62288041638442930, 62257678029266730,
   62227184845907795, 62196567447374300, 62165831006690380, 62134980518290760, 62104020805077695,
   62072956525157545, 62041792178273780, 62010532111951410, 61979180527367680, 61947741484963000,
   61916218909804690, 61884616596716190, 61852938215183190, 61821187314047600, 61789367325999920,
   61757481571879490, 61725533264792200, 61693525514054390, 61661461328970850, 61629343622455430,
   61597175214501280, 61564958835507650, 61532697129470400, 61500392657042160, 61468047898468400,
   61435665256404850, 61403247058621900, 61370795560601110, 61338312948028510, 61305801339189605,
   61273262787270070, 61240699282566840, 61208112754613040, 61175505074221040, 61142878055446670,
   61110233457478560, 61077572986455480, 61044898297214845, 61012210994975500, 60979512636957350,
   60946804733940730, 60914088751767820, 60881366112788820, 60848638197254840, 60815906344660140,
   60783171855035320, 60750435990194060, 60717699974934600, 60684964998198500, 60652232214188090,
   60619502743444000, 60586777673884950, 60554058061810950, 60521344932871270, 60488639282998940,
   60455942079312720, 60423254260988060, 60390576740098210, 60357910402426410, 60325256108250780,
   60292614693102360, 60259986968497780, 60227373722647330, 60194775721139280, 60162193707601740,
   60129628404342235, 60097080512966565, 60064550714977140, 60032039672351930, 59999548028104535,
   59967076406826045, 59934625415209535, 59902195642557850, 59869787661274890, 59837402027341440,
   59805039280775985, 59772699946080765, 59740384532674100, 59708093535308930, 59675827434478480,
   59643586696809370, 59611371775442350, 59579183110401654, 59547021128952700, 59514886245949150,
   59482778864169200, 59450699374641930, 59418648156963480, 59386625579604150, 59354632000205900,
   59322667765871255, 59290733213443500, 59258828669778730, 59226954452009710, 59195110867802110,
   59163298215603195, 59131516784883350, 59099766856370460, 59068048702277750, 59036362586524680,
   59004708764952010, 58973087485530260, 58941498988562415, 58909943506881070, 58878421266039656,
   58846932484498415, 58815477373805310, 58784056138771720, 58752668977643130, 58721316082265460,
   58689997638246325, 58658713825112200, 58627464816461075, 58596250780111080, 58565071878244890,
   58533928267550320, 58502820099357060, 58471747519769774, 58440710669797490, 58409709685479660,
   58378744698008855, 58347815833849920, 58316923214856380, 58286066958383485, 58255247177398260,
   58224463980586885, 58193717472458980, 58163007753449360, 58132334920017100, 58101699064741930,
   58071100276418300, 58040538640146890, 58010014237423670, 57979527146227100, 57949077441102500,
   57918665193244765, 57888290470578700, 57857953337837460, 57827653856638970, 57797392085560250,
   57767168080210240, 57736981893300520, 57706833574714200, 57676723171573380, 57646650728304810,
   57616616286703710, 57586619885996420, 57556661562901120, 57526741351687310, 57496859284233780,
   57467015390085060, 57437209696506635, 57407442228538725, 57377713009048800, 57348022058782850,
   57318369396415365, 57288755038598170, 57259179000008050, 57229641293393180, 57200141929618700,
   57170680917710760, 57141258264900100, 57111873976663970, 57082528056767650, 57053220507304490,
   57023951328735425, 56994720519927260, 56965528078190220, 56936373999314560, 56907258277606430,
   56878180905922700, 56849141875705220, 56820141177014120, 56791178798560350, 56762254727737700,
   56733368950653595, 56704521452159890, 56675712215882195, 56646941224249150, 56618208458520780,
   56589513898815980, 56560857524139970, 56532239312410490, 56503659240483834, 56475117284180150,
   56446613418308110, 56418147616689130, 56389719852181070, 56361330096701290, 56332978321249240,
   56304664495928650, 56276388589969075, 56248150571746990, 56219950408806500, 56191788067879660,
   56163663514906075, 56135576715052290, 56107527632730750, 56079516231618225, 56051542474673930,
   56023606324157305, 55995707741645155, 55967846688048740, 55940023123630260, 55912237008019146,
   55884488300227780, 55856776958667240, 55829102941162220, 55801466204966070, 55773866706775280,
   55746304402743700, 55718779248496480, 55691291199143700, 55663840209293620, 55636426233065880,
   55609049224104180, 55581709135588730, 55554405920248630, 55527139530373700, 55499909917826300,
   55472717034052730, 55445560830094560, 55418441256599530, 55391358263832380, 55364311801685330,
   55337301819688440, 55310328267019700, 55283391092514920, 55256490244677360, 55229625671687350,
   55202797321411360, 55176005141411290, 55149249078953230, 55122529081016240, 55095845094300870,
   55069197065237500, 55042584939994470, 55016008664486240, 54989468184381085, 54962963445108810,
   54936494391868360, 54910060969635035, 54883663123167850, 54857300797016530, 54830973935528400,
   54804682482855265, 54778426382959930, 54752205579622775, 54726020016448070, 54699869636870290,
   54673754384160125, 54647674201430550, 54621629031642550, 54595618817611080, 54569643502010480,
   54543703027380030, 54517797336129420, 54491926370543915, 54466090072789670, 54440288384918650,
   54414521248873690, 54388788606493280, 54363090399516425, 54337426569587190, 54311797058259430,
   54286201807001040, 54260640757198555, 54235113850161310, 54209621027125710, 54184162229259270,
   54158737397664730, 54133346473384010, 54107989397401970, 54082666110650335, 54057376554011350,
   54032120668321370, 54006898394374465, 53981709672925950, 53956554444695755, 53931432650371720,
   53906344230612990, 53881289126053080, 53856267277303200, 53831278624955140, 53806323109584420,
   53781400671753200, 53756511252013110, 53731654790908200, 53706831228977640, 53682040506758390,
   53657282564787980, 53632557343607010, 53607864783761750, 53583204825806545, 53558577410306470,
   53533982477839420, 53509419968998760, 53484889824395350, 53460391984660000, 53435926390445490,
   53411492982428910, 53387091701313580, 53362722487831240, 53338385282744000, 53314080026846320,
   53289806660967000, 53265565125970970, 53241355362761250, 53217177312280680, 53193030915513720,
   53168916113488190, 53144832847276950, 53120781057999595, 53096760686824020, 53072771674968040,
   53048813963700985, 53024887494345120, 53000992208277260, 52977128046930100, 52953294951793690,
   52929492864416850, 52905721726408480, 52881981479438960, 52858272065241330, 52834593425612715,
   52810945502415390, 52787328237578155, 52763741573097460, 52740185451038490, 52716659813536415,
   52693164602797460, 52669699761099900, 52646265230795270, 52622860954309270, 52599486874142790,
   52576142932872970, 52552829073154080, 52529545237718510, 52506291369377625, 52483067411022720,
   52459873305625840, 52436708996240720, 52413574426003480, 52390469538133555, 52367394275934380,
   52344348582794300, 52321332402187140, 52298345677673130, 52275388352899430, 52252460371601010,
   52229561677601160, 52206692214812250, 52183851927236375, 52161040758965920, 52138258654184190,
   52115505557166070, 52092781412278490, 52070086163981090, 52047419756826690, 52024782135461900,
   52002173244627510]

/-- maps/_nr_spectrum.json. -/
def file_nr_spectrum : Raw :=
  .point "cdf" 1000000000000000000
  [0, 8674250513574166, 17385831342227036, 26134011011075906, 34918035965497390, 43737102909474510,
   52590402391504900, 61477098039564300, 70396353046051020, 79347277770403640, 88328960384436160,
   97340469735927650, 106380867023189480, 115449190116939410, 124544419091729750, 133665530784099000,
   142811473044574370, 151981197835284330, 161173596182876580, 170387536412942460, 179621867959641770,
   188875435863021500, 198147061594009240, 207435500344317820, 216739508906130400, 226057813913232240,
   235389152941093220, 244732194229352580, 254085584077032970, 263447951842156640, 272817927811563940,
   282194119880993600, 291575060955073850, 300959292838914500, 310345327300023730, 319731696732693750,
   329116855734389260, 338499239433130200, 347877269960551850, 357249378287465400, 366613976039142030,
   375969391161957270, 385313970819052000, 394646033968819250, 403963933315581840, 413265935522992840,
   422550292419923370, 431815249268818040, 441059071171537500, 450280009256140870, 459476222613427740,
   468645903413990600, 477787219618520000, 486898390005204000, 495977539627742940, 505022785941018000,
   514032249203793200, 523004084066721400, 531936439321695500, 540827364024141400, 549674958154086000,
   558477303993794600, 567232556049941300, 575938768295129600, 584593997254351100, 593196314887438100,
   601743845872362800, 610234720146700800, 618666961166487000, 627038665300338400, 635347920468593500,
   643592912595417200, 651771721426126900, 659882442421840600, 667923202451858700, 675892203132341700,
   683787665454075000, 691607698378267400, 699350509673318100, 707014310588691800, 714597440078634200,
   722098126590818500, 729514630185760700, 736845261286985000, 744088430175567800, 751242583167169900,
   758306050257054300, 765277289144148700, 772154775092932800, 778937143464891300, 785622916050906800,
   792210664007992100, 798699029809325300, 805086782519401400, 811372745355052000, 817555621902328800,
   823634273578884300, 829607594425189700, 835474671459391500, 841234475859439900, 846886046208850800,
   852428513511467100, 857861161386669100, 863183345214105100, 868394297908328400, 873493438583369500,
   878480233041538700, 883354369849036500, 888115419473479400, 892763035501460500, 897296982348325000,
   901717198703496200, 906023707216746200, 910216410686543700, 914295414528494000, 918260883068713800,
   922113225190417200, 925852728191790800, 929479772331229000, 932994860486298900, 936398682291890800,
   939692018078770200, 942875523363510000, 945950066856180100, 948916578940051400, 951776242215600000,
   954530111341247100, 957179333636734400, 959725179423714200, 962169103442491200, 964512646189061300,
   966757214773949300, 968904422740247500, 970955936442949800, 972913661328394600, 974779364362784800,
   976554890348757900, 978242191365821400, 979843381332122100, 981360639192858900, 982795997503264400,
   984151665674711400, 985429882261740900, 986633085674558100, 987763560827923200, 988823638482599000,
   989815721850774900, 990742330165122800, 991606009472444000, 992409143244722200, 993154237368505500,
   993843788490503500, 994480426695732100, 995066611948557600, 995604802220486800, 996097462227287200,
   996547146926569400, 996956345780815000, 997327384702356000, 997662638043903800, 997964423876966500,
   998235108372167400, 998476876648080800, 998691858008960300, 998882133620463400, 999049788873732300,
   999196804550004800, 999324992290932100, 999436136706888100, 999531926911400000, 999614019088163400,
   999683898262132300, 999742955526716000, 999792496413265500, 999833765166545000, 999867890207725000,
   999895856674114500, 999918579856985700, 999936876905577400, 999951495594398300, 999963063693456600,
   999972125877120000, 999979154445701300, 999984559976631300, 999988682389020500, 999991790761731100,
   999994110512470700, 999995823141889400, 999997077054175500, 999997983980248500, 999998630803814800,
   999999085552049700, 999999401124492600, 999999617092682000, 999999761771162700, 999999856665939900,
   999999917430963500, 999999955550439500, 999999978747778400, 999999992345026900, 1000000000000000000]
  100000000000000000
  [29999999999999993, 30391067028671026, 30787231838039175, 31188560880569440, 31595121474972430,
   32006981817496355, 32424210993366220, 32846878988372163, 33275056700608807, 33708815952367716,
   34148229502184746, 34593371057044603, 35044315284744365, 35501137826418220, 35963915309225486,
   36432725359204000, 36907646614291045, 37388758737514090, 37876142430353340, 38369879446278640,
   38870052604462690, 39376745803673160, 39890044036345710, 40410033402840720, 40936801125885586,
   41470435565205480, 42011026232344760, 42558663805681546, 43113440145638116, 43675448310089480,
   44244782569972874, 44821538425100704, 45405812620179653, 45997703161038560, 46597309331067870,
   47204731707873390, 47820072180147090, 48443433964757900, 49074921624065200, 49714641083458090,
   50362699649123240, 51019206026044370, 51684270336236390, 52358004137217120, 53040520440720020,
   53731933731650590, 54432359987290100, 55141916696749480, 55860722880676920, 56588899111222320,
   57326567532262000, 58073851879887020, 58830877503158650, 59597771385134300, 60374662164167630,
   61161680155486230, 61958957373050690, 62766627551698480, 63584826169576610, 64413690470866610,
   65253359488805850, 66103974069008840, 66965676893092640, 67838612502610170, 68722927323295550,
   69618769689625410, 70526289869700560, 71445640090451750, 72376974563174170, 73320449509394810,
   74276223187076910, 75244455917166120, 76225310110482590, 77218950294963740, 78225543143261980,
   79245257500702400, 80278264413604740, 81324737157974600, 82384851268568650, 83458784568338770,
   84546717198259960, 85648831647547070, 86765312784265450, 87896347886340620, 89042126672972150,
   90202841336457110, 91378686574428190, 92569859622512280, 93776560287414610, 94998990980434240,
   96237356751416380, 97491865323147400, 98762727126198050, 100050155334221010, 101354365899708650,
   102675577590216480, 104014012025059420, 105369893712485840, 106743450087336600, 108134911549194920,
   109544511501033200, 110972486388364140, 112419075738901930, 113884522202740460, 115369071593055320,
   116872972927336360, 118396478469157770, 119939843770492670, 121503327714579150, 123087192559345240,
   124691703981399950, 126317131120597730, 127963746625183770, 129631826697527860, 131321651140454500,
   133033503404176880, 134767670633842520, 136524443717698940, 138304117335887100, 140106990009870920,
   141933364152510990, 143783546118791180, 145657846257206460, 147556578961820700, 149480062725002760,
   151428620190850300, 153402578209309910, 155402267891002930, 157428024662765380, 159480188323912620,
   161559103103236930, 163665117716748190, 165798585426167630, 167959864098183350, 170149316264478900,
   172367309182544080, 174614214897278700, 176890410303398830, 179196277208657140, 181532202397887080,
   183898577697882070, 186295800043120050, 188724271542345230, 191184399546017500, 193676596714641370,
   196201281087985110, 198758876155202710, 201349810925869600, 203974520001944700, 206633443650670050,
   209327027878421100, 212055724505519400, 214819991242021270, 217620291764493070, 220457095793788500,
   223330879173839200, 226242123951472560, 229191318457270080, 232178957387479420, 235205541886994670,
   238271579633418230, 241377584922218040, 244524078752995380, 247711588916877230, 250940650085047250,
   254211803898431800, 257525599058553900, 260882591419572400, 264283344081520650, 267728427484760800,
   271218419505668560, 274753905553566400, 278335478668919430, 281963739622812200, 285639297017721060,
   289362767389601140, 293134775311303650, 296955953497341700, 300826942910020900, 304748392866954600,
   308720961149979670, 312745314115492560, 316822126806223700, 320952083064468540, 325135875646795200,
   329374206340246720, 333667786080058540, 338017335068910850, 342423582897734140, 346887268668090960,
   351409141116152270, 355989958738290020, 360630489918306900, 365331513056324560, 370093816699352200,
   374918199673556530, 379805471218257500, 384756451121668340, 389771969858407050, 394852868728799770,
   400000000000000000]

/-- maps/_posrec_reso.json. -/
def file_posrec_reso : Raw :=
  .point "num_e" 1
  [0, 1, 2, 3, 4, 5, 6, 7, 8, 9, 10, 11, 12, 13, 14, 15, 16, 17, 18, 19, 20, 21, 22, 23, 24, 25, 26, 27, 28, 29,
   30, 31, 32, 33, 34, 35, 36, 37, 38, 39, 40, 41, 42, 43, 44, 45, 46, 47, 48, 49, 50, 51, 52, 53, 54, 55, 56,
   57, 58, 59, 60, 61, 62, 63, 64, 65, 66, 67, 68, 69, 70, 71, 72, 73, 74, 75, 76, 77, 78, 79, 80, 81, 82, 83,
   84, 85, 86, 87, 88, 89, 90, 91, 92, 93, 94, 95, 96, 97, 98, 99, 100, 101, 102, 103, 104, 105, 106, 107, 108,
   109, 110, 111, 112, 113, 114, 115, 116, 117, 118, 119, 120, 121, 122, 123, 124, 125, 126, 127, 128, 129, 130,
   131, 132, 133, 134, 135, 136, 137, 138, 139, 140, 141, 142, 143, 144, 145, 146, 147, 148, 149, 150, 151, 152,
   153, 154, 155, 156, 157, 158, 159, 160, 161, 162, 163, 164, 165, 166, 167, 168, 169, 170, 171, 172, 173, 174,
   175, 176, 177, 178, 179, 180, 181, 182, 183, 184, 185, 186, 187, 188, 189, 190, 191, 192, 193, 194, 195, 196,
   197, 198, 199, 200, 201, 202, 203, 204, 205, 206, 207, 208, 209, 210, 211, 212, 213, 214, 215, 216, 217, 218,
   219, 220, 221, 222, 223, 224, 225, 226, 227, 228, 229, 230, 231, 232, 233, 234, 235, 236, 237, 238, 239, 240,
   241, 242, 243, 244, 245, 246, 247, 248, 249, 250, 251, 252, 253, 254, 255, 256, 257, 258, 259, 260, 261, 262,
   263, 264, 265, 266, 267, 268, 269, 270, 271, 272, 273, 274, 275, 276, 277, 278, 279, 280, 281, 282, 283, 284,
   285, 286, 287, 288, 289, 290, 291, 292, 293, 294, 295, 296, 297, 298, 299, 300, 301, 302, 303, 304, 305, 306,
   307, 308, 309, 310, 311, 312, 313, 314, 315, 316, 317, 318, 319, 320, 321, 322, 323, 324, 325, 326, 327, 328,
   329, 330, 331, 332, 333, 334, 335, 336, 337, 338, 339, 340, 341, 342, 343, 344, 345, 346, 347, 348, 349, 350,
   351, 352, 353, 354, 355, 356, 357, 358, 359, 360, 361, 362, 363, 364, 365, 366, 367, 368, 369, 370, 371, 372,
   373, 374, 375, 376, 377, 378, 379, 380, 381, 382, 383, 384, 385, 386, 387, 388, 389, 390, 391, 392, 393, 394,
   395, 396, 397, 398, 399, 400, 401, 402, 403, 404, 405, 406, 407, 408, 409, 410, 411, 412, 413, 414, 415, 416,
   417, 418, 419, 420, 421, 422, 423, 424, 425, 426, 427, 428, 429, 430, 431, 432, 433, 434, 435, 436, 437, 438,
   439, 440, 441, 442, 443, 444, 445, 446, 447, 448, 449, 450, 451, 452, 453, 454, 455, 456, 457, 458, 459, 460,
   461, 462, 463, 464, 465, 466, 467, 468, 469, 470, 471, 472, 473, 474, 475, 476, 477, 478, 479, 480, 481, 482,
   483, 484, 485, 486, 487, 488, 489, 490, 491, 492, 493, 494, 495, 496, 497, 498, 499, 500, 501, 502, 503, 504,
   505, 506, 507, 508, 509, 510, 511, 512, 513, 514, 515, 516, 517, 518, 519, 520, 521, 522, 523, 524, 525, 526,
   527, 528, 529, 530, 531, 532, 533, 534, 535, 536, 537, 538, 539, 540, 541, 542, 543, 544, 545, 546, 547, 548,
   549, 550, 551, 552, 553, 554, 555, 556, 557, 558, 559, 560, 561, 562, 563, 564, 565, 566, 567, 568, 569, 570,
   571, 572, 573, 574, 575, 576, 577, 578, 579, 580, 581, 582, 583, 584, 585, 586, 587, 588, 589, 590, 591, 592,
   593, 594, 595, 596, 597, 598, 599, 600, 601, 602, 603, 604, 605, 606, 607, 608, 609, 610, 611, 612, 613, 614,
   615, 616, 617, 618, 619, 620, 621, 622, 623, 624, 625, 626, 627, 628, 629, 630, 631, 632, 633, 634, 635, 636,
   637, 638, 639, 640, 641, 642, 643, 644, 645, 646, 647, 648, 649, 650, 651, 652, 653, 654, 655, 656, 657, 658,
   659, 660, 661, 662, 663, 664, 665, 666, 667, 668, 669, 670, 671, 672, 673, 674, 675, 676, 677, 678, 679, 680,
   681, 682, 683, 684, 685, 686, 687, 688, 689, 690, 691, 692, 693, 694, 695, 696, 697, 698, 699, 700, 701, 702,
   703, 704, 705, 706, 707, 708, 709, 710, 711, 712, 713, 714, 715, 716, 717, 718, 719, 720, 721, 722, 723, 724,
   725, 726, 727, 728, 729, 730, 731, 732, 733, 734, 735, 736, 737, 738, 739, 740, 741, 742, 743, 744, 745, 746,
   747, 748, 749, 750, 751, 752, 753, 754, 755, 756, 757, 758, 759, 760, 761, 762, 763, 764, 765, 766, 767, 768,
   769, 770, 771, 772, 773, 774, 775, 776, 777, 778, 779, 780, 781, 782, 783, 784, 785, 786, 787, 788, 789, 790,
   791, 792, 793, 794, 795, 796, 797, 798, 799, 800, 801, 802, 803, 804, 805, 806, 807, 808, 809, 810, 811, 812,
   813, 814, 815, 816, 817, 818, 819, 820, 821, 822, 823, 824, 825, 826, 827, 828, 829, 830, 831, 832, 833, 834,
   835, 836, 837, 838, 839, 840, 841, 842, 843, 844, 845, 846, 847, 848, 849, 850, 851, 852, 853, 854, 855, 856,
   857, 858, 859, 860, 861, 862, 863, 864, 865, 866, 867, 868, 869, 870, 871, 872, 873, 874, 875, 876, 877, 878,
   879, 880, 881, 882, 883, 884, 885, 886, 887, 888, 889, 890, 891, 892, 893, 894, 895, 896, 897, 898, 899, 900,
   901, 902, 903, 904, 905, 906, 907, 908, 909, 910, 911, 912, 913, 914, 915, 916, 917, 918, 919, 920, 921, 922,
   923, 924, 925, 926, 927, 928, 929, 930, 931, 932, 933, 934, 935, 936, 937, 938, 939, 940, 941, 942, 943, 944,
   945, 946, 947, 948, 949, 950, 951, 952, 953, 954, 955, 956, 957, 958, 959, 960, 961, 962, 963, 964, 965, 966,
   967, 968, 969, 970, 971, 972, 973, 974, 975, 976, 977, 978, 979, 980, 981, 982, 983, 984, 985, 986, 987, 988,
   989, 990, 991, 992, 993, 994, 995, 996, 997, 998, 999]
  10
  [1, 1, 1, 1, 1, 1, 1, 1, 1, 1, 1, 1, 1, 1, 1, 1, 1, 1, 1, 1, 1, 1, 1, 1, 1, 1, 1, 1, 1, 1, 1, 1, 1, 1, 1, 1,
   1, 1, 1, 1, 1, 1, 1, 1, 1, 1, 1, 1, 1, 1, 1, 1, 1, 1, 1, 1, 1, 1, 1, 1, 1, 1, 1, 1, 1, 1, 1, 1, 1, 1, 1, 1,
   1, 1, 1, 1, 1, 1, 1, 1, 1, 1, 1, 1, 1, 1, 1, 1, 1, 1, 1, 1, 1, 1, 1, 1, 1, 1, 1, 1, 1, 1, 1, 1, 1, 1, 1, 1,
   1, 1, 1, 1, 1, 1, 1, 1, 1, 1, 1, 1, 1, 1, 1, 1, 1, 1, 1, 1, 1, 1, 1, 1, 1, 1, 1, 1, 1, 1, 1, 1, 1, 1, 1, 1,
   1, 1, 1, 1, 1, 1, 1, 1, 1, 1, 1, 1, 1, 1, 1, 1, 1, 1, 1, 1, 1, 1, 1, 1, 1, 1, 1, 1, 1, 1, 1, 1, 1, 1, 1, 1,
   1, 1, 1, 1, 1, 1, 1, 1, 1, 1, 1, 1, 1, 1, 1, 1, 1, 1, 1, 1, 1, 1, 1, 1, 1, 1, 1, 1, 1, 1, 1, 1, 1, 1, 1, 1,
   1, 1, 1, 1, 1, 1, 1, 1, 1, 1, 1, 1, 1, 1, 1, 1, 1, 1, 1, 1, 1, 1, 1, 1, 1, 1, 1, 1, 1, 1, 1, 1, 1, 1, 1, 1,
   1, 1, 1, 1, 1, 1, 1, 1, 1, 1, 1, 1, 1, 1, 1, 1, 1, 1, 1, 1, 1, 1, 1, 1, 1, 1, 1, 1, 1, 1, 1, 1, 1, 1, 1, 1,
   1, 1, 1, 1, 1, 1, 1, 1, 1, 1, 1, 1, 1, 1, 1, 1, 1, 1, 1, 1, 1, 1, 1, 1, 1, 1, 1, 1, 1, 1, 1, 1, 1, 1, 1, 1,
   1, 1, 1, 1, 1, 1, 1, 1, 1, 1, 1, 1, 1, 1, 1, 1, 1, 1, 1, 1, 1, 1, 1, 1, 1, 1, 1, 1, 1, 1, 1, 1, 1, 1, 1, 1,
   1, 1, 1, 1, 1, 1, 1, 1, 1, 1, 1, 1, 1, 1, 1, 1, 1, 1, 1, 1, 1, 1, 1, 1, 1, 1, 1, 1, 1, 1, 1, 1, 1, 1, 1, 1,
   1, 1, 1, 1, 1, 1, 1, 1, 1, 1, 1, 1, 1, 1, 1, 1, 1, 1, 1, 1, 1, 1, 1, 1, 1, 1, 1, 1, 1, 1, 1, 1, 1, 1, 1, 1,
   1, 1, 1, 1, 1, 1, 1, 1, 1, 1, 1, 1, 1, 1, 1, 1, 1, 1, 1, 1, 1, 1, 1, 1, 1, 1, 1, 1, 1, 1, 1, 1, 1, 1, 1, 1,
   1, 1, 1, 1, 1, 1, 1, 1, 1, 1, 1, 1, 1, 1, 1, 1, 1, 1, 1, 1, 1, 1, 1, 1, 1, 1, 1, 1, 1, 1, 1, 1, 1, 1, 1, 1,
   1, 1, 1, 1, 1, 1, 1, 1, 1, 1, 1, 1, 1, 1, 1, 1, 1, 1, 1, 1, 1, 1, 1, 1, 1, 1, 1, 1, 1, 1, 1, 1, 1, 1, 1, 1,
   1, 1, 1, 1, 1, 1, 1, 1, 1, 1, 1, 1, 1, 1, 1, 1, 1, 1, 1, 1, 1, 1, 1, 1, 1, 1, 1, 1, 1, 1, 1, 1, 1, 1, 1, 1,
   1, 1, 1, 1, 1, 1, 1, 1, 1, 1, 1, 1, 1, 1, 1, 1, 1, 1, 1, 1, 1, 1, 1, 1, 1, 1, 1, 1, 1, 1, 1, 1, 1, 1, 1, 1,
   1, 1, 1, 1, 1, 1, 1, 1, 1, 1, 1, 1, 1, 1, 1, 1, 1, 1, 1, 1, 1, 1, 1, 1, 1, 1, 1, 1, 1, 1, 1, 1, 1, 1, 1, 1,
   1, 1, 1, 1, 1, 1, 1, 1, 1, 1, 1, 1, 1, 1, 1, 1, 1, 1, 1, 1, 1, 1, 1, 1, 1, 1, 1, 1, 1, 1, 1, 1, 1, 1, 1, 1,
   1, 1, 1, 1, 1, 1, 1, 1, 1, 1, 1, 1, 1, 1, 1, 1, 1, 1, 1, 1, 1, 1, 1, 1, 1, 1, 1, 1, 1, 1, 1, 1, 1, 1, 1, 1,
   1, 1, 1, 1, 1, 1, 1, 1, 1, 1, 1, 1, 1, 1, 1, 1, 1, 1, 1, 1, 1, 1, 1, 1, 1, 1, 1, 1, 1, 1, 1, 1, 1, 1, 1, 1,
   1, 1, 1, 1, 1, 1, 1, 1, 1, 1, 1, 1, 1, 1, 1, 1, 1, 1, 1, 1, 1, 1, 1, 1, 1, 1, 1, 1, 1, 1, 1, 1, 1, 1, 1, 1,
   1, 1, 1, 1, 1, 1, 1, 1, 1, 1, 1, 1, 1, 1, 1, 1, 1, 1, 1, 1, 1, 1, 1, 1, 1, 1, 1, 1, 1, 1, 1, 1, 1, 1, 1, 1,
   1, 1, 1, 1, 1, 1, 1, 1, 1, 1, 1, 1, 1, 1, 1, 1, 1, 1, 1, 1, 1, 1, 1, 1, 1, 1, 1, 1, 1, 1, 1, 1, 1, 1, 1, 1,
   1, 1, 1, 1, 1, 1, 1, 1, 1, 1, 1, 1, 1, 1, 1, 1, 1, 1, 1, 1, 1, 1, 1, 1, 1, 1, 1, 1, 1, 1, 1, 1, 1, 1, 1, 1,
   1, 1, 1, 1, 1, 1, 1, 1, 1, 1, 1, 1, 1, 1, 1, 1, 1, 1, 1, 1, 1, 1, 1, 1, 1, 1, 1, 1, 1, 1, 1, 1, 1, 1, 1, 1,
   1, 1, 1, 1, 1, 1, 1, 1, 1, 1, 1, 1, 1, 1, 1, 1, 1, 1, 1, 1, 1, 1, 1, 1, 1, 1, 1, 1, 1, 1, 1, 1, 1, 1, 1, 1,
   1, 1, 1, 1, 1, 1, 1, 1, 1, 1, 1, 1, 1, 1, 1, 1, 1, 1, 1, 1, 1, 1, 1, 1, 1, 1, 1, 1]

/-- maps/_s1_bias.json. -/
def file_s1_bias : Raw :=
  .point "hit" 1
  [0, 1, 2, 3]
  1
  [0, 0, 0, 0]

/-- maps/_s1_correction.json. -/
def file_s1_correction : Raw :=
  .grid ["x", "y", "z"] 1 [-70, -70, -140] [70, 70, 0] [5, 5, 5] 10
  [10, 10, 10, 10, 10, 10, 10, 10, 10, 10, 10, 10, 10, 10, 10, 10, 10, 10, 10, 10, 10, 10, 10, 10, 10, 10, 10,
   10, 10, 10, 10, 10, 10, 10, 10, 10, 10, 10, 10, 10, 10, 10, 10, 10, 10, 10, 10, 10, 10, 10, 10, 10, 10, 10,
   10, 10, 10, 10, 10, 10, 10, 10, 10, 10, 10, 10, 10, 10, 10, 10, 10, 10, 10, 10, 10, 10, 10, 10, 10, 10, 10,
   10, 10, 10, 10, 10, 10, 10, 10, 10, 10, 10, 10, 10, 10, 10, 10, 10, 10, 10, 10, 10, 10, 10, 10, 10, 10, 10,
   10, 10, 10, 10, 10, 10, 10, 10, 10, 10, 10, 10, 10, 10, 10, 10, 10]

/-- maps/_s1_cut_acc.json. -/
def file_s1_cut_acc : Raw :=
  .point "s1_area" 1
  [0, 50, 100]
  10
  [10, 10, 10]

/-- maps/_s1_smearing.json. -/
def file_s1_smearing : Raw :=
  .point "hit" 10
  [30, 40, 50, 60, 70, 80, 90, 100, 110, 120, 130, 140, 150, 160, 170, 180, 190, 200, 210, 220, 230, 240, 250,
   260, 270, 280, 290, 300, 310, 320, 330, 340, 350, 360, 370, 380, 390, 400, 410, 420, 430, 440, 450, 460, 470,
   480, 490, 500, 510, 520, 530, 540, 550, 560, 570, 580, 590, 600, 610, 620, 630, 640, 650, 660, 670, 680, 690,
   700, 710, 720, 730, 740, 750, 760, 770, 780, 790, 800, 810, 820, 830, 840, 850, 860, 870, 880, 890, 900, 910,
   920, 930, 940, 950, 960, 970, 980, 990, 1000]
  1000000000000000000
  [230940107675850330, 200000000000000000, 178885438199983180, 163299316185545220, 151185789203690880,
   141421356237309500, 133333333333333330, 126491106406735170, 120604537831105460, 115470053837925160,
   110940039245045840, 106904496764969760, 103279555898864450, 100000000000000000, 97014250014533190,
   94280904158206350, 91766293548224700, 89442719099991590, 87287156094396970, 85280286542244180,
   83405765622829920, 81649658092772610, 80000000000000000, 78446454055273620, 76980035891950100,
   75592894601845440, 74278135270820750, 73029674334022150, 71842120810709970, 70710678118654750,
   69631062382279150, 68599434057003540, 67612340378281330, 66666666666666670, 65759594922142920,
   64888568452305020, 64051261522034860, 63245553203367580, 62469504755442430, 61721339984836770,
   60999428133041870, 60302268915552730, 59628479399994390, 58976782461958860, 58345996599157825,
   57735026918962580, 57142857142857150, 56568542494923800, 56011203361120390, 55470019622522920,
   54944225579475610, 54433105395181740, 53935988997059370, 53452248382484880, 52981294282601750,
   52522573143889020, 52075564392329556, 51639777949432225, 51214751973158400, 50800050800076200,
   50395263067896960, 50000000000000000, 49613893835683390, 49236596391733090, 48867777742522090,
   48507125007266595, 48154341234307680, 47809144373375745, 47471266327754134, 47140452079103175,
   46816458878452230, 46499055497527720, 46188021535170060, 45883146774112350, 45584230583855176,
   45291081365783830, 45003516037040960, 44721359549995794, 44444444444444446, 44172610429938614,
   43905703995876140, 43643578047198484, 43386091563731240, 43133109281375370, 42884501393511790,
   42640143271122090, 42399915200254410, 42163702135578390, 41931393468876730, 41702882811414960,
   41478067789217010, 41256849850351740, 41039134083406170, 40824829046386304, 40613846605344770,
   40406101782088436, 40201512610368490, 40000000000000000]

/-- maps/_s2_bias.json. -/
def file_s2_bias : Raw :=
  .point "hit" 1
  [0, 100, 200, 300]
  1
  [0, 0, 0, 0]

/-- maps/_s2_correction.json. -/
def file_s2_correction : Raw :=
  .grid ["x", "y"] 1 [-70, -70] [70, 70] [5, 5] 10
  [10, 10, 10, 10, 10, 10, 10, 10, 10, 10, 10, 10, 10, 10, 10, 10, 10, 10, 10, 10, 10, 10, 10, 10, 10]

/-- maps/_s2_cut_acc.json. -/
def file_s2_cut_acc : Raw :=
  .point "s2_area" 1
  [0, 500, 1000]
  10
  [10, 10, 10]

/-- maps/_s2_smearing.json. -/
def file_s2_smearing : Raw :=
  .point "hit" 100000000000000
  [20000000000000000, 29898989898989896, 39797979797979800, 49696969696969700, 59595959595959600,
   69494949494949490, 79393939393939400, 89292929292929300, 99191919191919190, 109090909090909100,
   118989898989898980, 128888888888888900, 138787878787878800, 148686868686868680, 158585858585858600,
   168484848484848480, 178383838383838380, 188282828282828300, 198181818181818180, 208080808080808100,
   217979797979797970, 227878787878787900, 237777777777777800, 247676767676767670, 257575757575757600,
   267474747474747500, 277373737373737370, 287272727272727250, 297171717171717200, 307070707070707070,
   316969696969696950, 326868686868686900, 336767676767676770, 346666666666666650, 356565656565656600,
   366464646464646470, 376363636363636350, 386262626262626300, 396161616161616170, 406060606060606050,
   415959595959595900, 425858585858585900, 435757575757575800, 445656565656565600, 455555555555555600,
   465454545454545500, 475353535353535300, 485252525252525300, 495151515151515200, 505050505050505000,
   514949494949495000, 524848484848484800, 534747474747474700, 544646464646464700, 554545454545454500,
   564444444444444400, 574343434343434400, 584242424242424200, 594141414141414100, 604040404040404100,
   613939393939393900, 623838383838383800, 633737373737373800, 643636363636363600, 653535353535353500,
   663434343434343500, 673333333333333300, 683232323232323200, 693131313131313200, 703030303030303000,
   712929292929292900, 722828282828282900, 732727272727272700, 742626262626262600, 752525252525252600,
   762424242424242400, 772323232323232300, 782222222222222300, 792121212121212100, 802020202020202000,
   811919191919191900, 821818181818181800, 831717171717171700, 841616161616161700, 851515151515151600,
   861414141414141300, 871313131313131300, 881212121212121200, 891111111111111100, 901010101010101000,
   910909090909091000, 920808080808080700, 930707070707070700, 940606060606060600, 950505050505050500,
   960404040404040500, 970303030303030400, 980202020202020100, 990101010101010000, 1000000000000000000]
  10000000000000000000
  [424264068711928500, 346994820430226900, 300760457493797140, 269144987674383230, 245777907186583680,
   227601242486492920, 212940159318015140, 200790293792922070, 190507950024147960, 181659021245849480,
   173938693022543150, 167125804359346680, 161055470657848060, 155601916831828030, 150667305486874480,
   146174233279398950, 142060552064959720, 138275708907312200, 134778105101232580, 131533155036235650,
   128511835785575340, 125689587239458820, 123045466864439380, 120561492233057820, 118222123937253360,
   116013854782567130, 113924880375342300, 111944832706205140, 110064562969894670, 108275963216802240,
   106571818888775430, 104945686111314430, 103391788975694190, 101904933073013620, 100480432326166160,
   99114046768425670, 97801929384365140, 96540580493429640, 95326808443140100, 94157695605781720,
   93030568853127390, 91942973828523930, 90892652452325280, 89877523191159050, 88895663698463060,
   87945295496689290, 87024770423330160, 86132558605655630, 85267237764485560, 84427483676821730,
   83612061651822110, 82819818895283610, 82049677655213970, 81300629055785700, 80571727539432370,
   79862085847450250, 79170870478510000, 78497297572216320, 77840629171487220, 77200169823231510,
   76575263481722100, 75965290683318230, 75369665964876060, 74787835501390530, 74219274941200600,
   73663487419523745, 73120001733214870, 72588370661509720, 72068169419151834, 71558994229743150,
   71060461008429430, 70572204144153760, 70093875372704770, 69625142732665690, 69165689597152600,
   68715213774924300, 68273426675065400, 67840052529996810, 67414827672060080, 66997499859364470,
   66587827646980395, 66185579799918105, 65790534744649120, 65402480056215000, 65021211978226285,
   64646534973287870, 64278261301597220, 63916210625652540, 63560209639180380, 63210091718548110,
   62865696595068710, 62526870046733980, 62193463608029370, 61865334296590250, 61542344355556495,
   61224361010570890, 60911256240447920, 60602906560613030, 60299192818480530, 60000000000000000]

/-- The folder maps. -/
def mapFiles : PyDict String Raw :=
  [("_3fold_recon_eff.json", file_3fold_recon_eff),
   ("_efield_map.json", file_efield_map),
   ("_elife.json", file_elife),
   ("_gas_gain_relative.json", file_gas_gain_relative),
   ("_nr_ly.json", file_nr_ly),
   ("_nr_qy.json", file_nr_qy),
   ("_nr_spectrum.json", file_nr_spectrum),
   ("_posrec_reso.json", file_posrec_reso),
   ("_s1_bias.json", file_s1_bias),
   ("_s1_correction.json", file_s1_correction),
   ("_s1_cut_acc.json", file_s1_cut_acc),
   ("_s1_smearing.json", file_s1_smearing),
   ("_s2_bias.json", file_s2_bias),
   ("_s2_correction.json", file_s2_correction),
   ("_s2_cut_acc.json", file_s2_cut_acc),
   ("_s2_smearing.json", file_s2_smearing)]

/-- The maps declared by plugins (common.py 46-51, lyqy.py 15-20, lyqy.py 47-52, detector.py 21-25, detector.py 44-48, detector.py 63-67, detector.py 108-113, detector.py 140-144, reconstruction.py 16-21, reconstruction.py 43-48, reconstruction.py 49-54, reconstruction.py 71-76, reconstruction.py 77-82, reconstruction.py 99-103, reconstruction.py 118-122, efficiency.py 25-30, efficiency.py 46-51, efficiency.py 67-72); the method is `IDW` unless given (config.py 199). -/
def mapUses : List Use :=
  [⟨Shipped.common_FixedEnergySpectra, "energy_spectrum", "LERP", ["_nr_spectrum.json"], none⟩,
   ⟨Shipped.lyqy_LightYield, "ly_median", "LERP", ["_nr_ly.json"], none⟩,
   ⟨Shipped.lyqy_ChargeYield, "qy_median", "LERP", ["_nr_qy.json"], none⟩,
   ⟨Shipped.detector_EField, "efield_map", "IDW", ["_efield_map.json"], none⟩,
   ⟨Shipped.detector_S1LCE, "s1_lce", "IDW", ["_s1_correction.json"], none⟩,
   ⟨Shipped.detector_S2LCE, "s2_lce", "IDW", ["_s2_correction.json"], none⟩,
   ⟨Shipped.detector_DriftLoss, "elife", "LERP", ["_elife.json"], none⟩,
   ⟨Shipped.detector_S2PE, "gas_gain_relative", "IDW", ["_gas_gain_relative.json"], none⟩,
   ⟨Shipped.reconstruction_PositionRecon, "posrec_reso", "LERP", ["_posrec_reso.json"], none⟩,
   ⟨Shipped.reconstruction_S1, "s1_bias_3f", "LERP", ["_s1_bias.json"], none⟩,
   ⟨Shipped.reconstruction_S1, "s1_smear_3f", "LERP", ["_s1_smearing.json"], none⟩,
   ⟨Shipped.reconstruction_S2, "s2_bias", "LERP", ["_s2_bias.json"], none⟩,
   ⟨Shipped.reconstruction_S2, "s2_smear", "LERP", ["_s2_smearing.json"], none⟩,
   ⟨Shipped.reconstruction_S1Correction, "s1_correction", "IDW", ["_s1_correction.json"], none⟩,
   ⟨Shipped.reconstruction_S2Correction, "s2_correction", "IDW", ["_s2_correction.json"], none⟩,
   ⟨Shipped.efficiency_S1ReconEff, "s1_eff_3f", "NN", ["_3fold_recon_eff.json", "_3fold_recon_eff.json", "_3fold_recon_eff.json"], none⟩,
   ⟨Shipped.efficiency_S1CutAccept, "s1_cut_acc", "LERP", ["_s1_cut_acc.json", "_s1_cut_acc.json", "_s1_cut_acc.json"], some "s1_cut_acc_sigma"⟩,
   ⟨Shipped.efficiency_S2CutAccept, "s2_cut_acc", "LERP", ["_s2_cut_acc.json", "_s2_cut_acc.json", "_s2_cut_acc.json"], some "s2_cut_acc_sigma"⟩]

end Verif.MapFile

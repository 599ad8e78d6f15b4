import Verif.Instances.Secp256k1
import Verif.Instances.Secp256k1Iso3
import Verif.Instances.Bls12381g1
import Verif.Instances.Bls12381g1Iso11
import Verif.Proofs.IsoLink
import Verif.Math.SswuCert

/-! # The isogenies of the library (generated certificates) -/

set_option maxRecDepth 100000

namespace Redox.Inst

/-- The value of `get_isogeny_secp256k1()`. -/
def isoSecp256k1 : IsoMap where
  e0 := secp256k1_3iso
  e1 := secp256k1
  x_num := [
    ⟨64328938465175664124206102782604393251816658147578091133031991115504908150983, ⟨secp256k1_p⟩⟩,
    ⟨3540463234204664767867377763959255381561641196938647754971861192896365225345, ⟨secp256k1_p⟩⟩,
    ⟨37676595701789655284650173187508961899444205326770530105295841645151729341026, ⟨secp256k1_p⟩⟩,
    ⟨64328938465175664124206102782604393251816658147578091133031991115504908150924, ⟨secp256k1_p⟩⟩]
  x_den := [
    ⟨95592507323525948732419199626899895302164312317343489384240252208201861084315, ⟨secp256k1_p⟩⟩,
    ⟨107505182841474506714709588670204841388457878609653642868747406790547894725908, ⟨secp256k1_p⟩⟩,
    ⟨1, ⟨secp256k1_p⟩⟩,
    ⟨0, ⟨secp256k1_p⟩⟩]
  y_num := [
    ⟨34308767181427020866243254817389009734302217678708315270950395261602617680444, ⟨secp256k1_p⟩⟩,
    ⟨90176424683627901097894375140309208301239340832535417794535213712559228940707, ⟨secp256k1_p⟩⟩,
    ⟨18838297850894827642325086593754480949722102663385265052647920822575864670513, ⟨secp256k1_p⟩⟩,
    ⟨21442979488391888041402034260868131083938886049192697044343997038501636050308, ⟨secp256k1_p⟩⟩]
  y_den := [
    ⟨115792089237316195423570985008687907853269984665640564039457584007908834670907, ⟨secp256k1_p⟩⟩,
    ⟨55193343495945455350115628863323870199952967620749340073805588608787913909619, ⟨secp256k1_p⟩⟩,
    ⟨45465685024895564648493397996619354229416833248839900263663526177913007417199, ⟨secp256k1_p⟩⟩,
    ⟨1, ⟨secp256k1_p⟩⟩]

theorem isoSecp256k1_eq : get_isogeny_secp256k1 = R.ok isoSecp256k1 := by decide +kernel

theorem isoSecp256k1_ok : Spec.IsoOK secp256k1_p isoSecp256k1 :=
  RLink.isoOK_of_check isoSecp256k1 secp256k1_3iso_valid.curve secp256k1_valid.curve (by decide +kernel) (by decide +kernel)
    (by decide +kernel) (by decide +kernel) (by decide +kernel)

/-- The abscissae of the kernel. -/
def isoSecp256k1_kernel : List ℕ := [62039497816578942066216190673585487159041045360813742605083880612634887308709]

theorem isoSecp256k1_inKernel (x : ZMod secp256k1_p) : Spec.InKernel secp256k1_p isoSecp256k1 x ↔ ∃ r ∈ isoSecp256k1_kernel, x = (r : ZMod secp256k1_p) :=
  RLink.inKernel_of_check isoSecp256k1 isoSecp256k1_ok (by decide +kernel) (by decide +kernel) (by decide +kernel) x

theorem isoSecp256k1_both (x : ZMod secp256k1_p) (h : Spec.InKernel secp256k1_p isoSecp256k1 x) :
    Spec.polyVal secp256k1_p isoSecp256k1.x_den x = 0 ∧ Spec.polyVal secp256k1_p isoSecp256k1.y_den x = 0 :=
  RLink.both_of_check isoSecp256k1 isoSecp256k1_ok (rs := isoSecp256k1_kernel) (by decide +kernel) (by decide +kernel) (by decide +kernel) x h

/-- The value of `get_isogeny_bls12381g1()`. -/
def isoBls12381g1 : IsoMap where
  e0 := bls12381g1_11iso
  e1 := bls12381g1
  x_num := [
    ⟨2712959285290305970661081772124144179193819192423276218370281158706191519995889425075952244140278856085036081760695, ⟨bls12381g1_p⟩⟩,
    ⟨3564859427549639835253027846704205725951033235539816243131874237388832081954622352624080767121604606753339903542203, ⟨bls12381g1_p⟩⟩,
    ⟨2051387046688339481714726479723076305756384619135044672831882917686431912682625619320120082313093891743187631791280, ⟨bls12381g1_p⟩⟩,
    ⟨3612713941521031012780325893181011392520079402153354595775735142359240110423346445050803899623018402874731133626465, ⟨bls12381g1_p⟩⟩,
    ⟨2247053637822768981792833880270996398470828564809439728372634811976089874056583714987807553397615562273407692740057, ⟨bls12381g1_p⟩⟩,
    ⟨3415427104483187489859740871640064348492611444552862448295571438270821994900526625562705192993481400731539293415811, ⟨bls12381g1_p⟩⟩,
    ⟨2067521456483432583860405634125513059912765526223015704616050604591207046392807563217109432457129564962571408764292, ⟨bls12381g1_p⟩⟩,
    ⟨3650721292069012982822225637849018828271936405382082649291891245623305084633066170122780668657208923883092359301262, ⟨bls12381g1_p⟩⟩,
    ⟨1239271775787030039269460763652455868148971086016832054354147730155061349388626624328773377658494412538595239256855, ⟨bls12381g1_p⟩⟩,
    ⟨3479374185711034293956731583912244564891370843071137483962415222733470401948838363051960066766720884717833231600798, ⟨bls12381g1_p⟩⟩,
    ⟨2492756312273161536685660027440158956721981129429869601638362407515627529461742974364729223659746272460004902959995, ⟨bls12381g1_p⟩⟩,
    ⟨1058488477413994682556770863004536636444795456512795473806825292198091015005841418695586811009326456605062948114985, ⟨bls12381g1_p⟩⟩]
  x_den := [
    ⟨1353092447850172218905095041059784486169131709710991428415161466575141675351394082965234118340787683181925558786844, ⟨bls12381g1_p⟩⟩,
    ⟨2822220997908397120956501031591772354860004534930174057793539372552395729721474912921980407622851861692773516917759, ⟨bls12381g1_p⟩⟩,
    ⟨1717937747208385987946072944131378949849282930538642983149296304709633281382731764122371874602115081850953846504985, ⟨bls12381g1_p⟩⟩,
    ⟨501624051089734157816582944025690868317536915684467868346388760435016044027032505306995281054569109955275640941784, ⟨bls12381g1_p⟩⟩,
    ⟨3025903087998593826923738290305187197829899948335370692927241015584233559365859980023579293766193297662657497834014, ⟨bls12381g1_p⟩⟩,
    ⟨2224140216975189437834161136818943039444741035168992629437640302964164227138031844090123490881551522278632040105125, ⟨bls12381g1_p⟩⟩,
    ⟨1146414465848284837484508420047674663876992808692209238763293935905506532411661921697047880549716175045414621825594, ⟨bls12381g1_p⟩⟩,
    ⟨3179090966864399634396993677377903383656908036827452986467581478509513058347781039562481806409014718357094150199902, ⟨bls12381g1_p⟩⟩,
    ⟨1549317016540628014674302140786462938410429359529923207442151939696344988707002602944342203885692366490121021806145, ⟨bls12381g1_p⟩⟩,
    ⟨1442797143427491432630626390066422021593505165588630398337491100088557278058060064930663878153124164818522816175370, ⟨bls12381g1_p⟩⟩,
    ⟨1, ⟨bls12381g1_p⟩⟩,
    ⟨0, ⟨bls12381g1_p⟩⟩]
  y_num := [
    ⟨1393399195776646641963150658816615410692049723305861307490980409834842911816308830479576739332720113414154429643571, ⟨bls12381g1_p⟩⟩,
    ⟨2968610969752762946134106091152102846225411740689724909058016729455736597929366401532929068084731548131227395540630, ⟨bls12381g1_p⟩⟩,
    ⟨122933100683284845219599644396874530871261396084070222155796123161881094323788483360414289333111221370374027338230, ⟨bls12381g1_p⟩⟩,
    ⟨303251954782077855462083823228569901064301365507057490567314302006681283228886645653148231378803311079384246777035, ⟨bls12381g1_p⟩⟩,
    ⟨1353972356724735644398279028378555627591260676383150667237975415318226973994509601413730187583692624416197017403099, ⟨bls12381g1_p⟩⟩,
    ⟨3443977503653895028417260979421240655844034880950251104724609885224259484262346958661845148165419691583810082940400, ⟨bls12381g1_p⟩⟩,
    ⟨718493410301850496156792713845282235942975872282052335612908458061560958159410402177452633054233549648465863759602, ⟨bls12381g1_p⟩⟩,
    ⟨1466864076415884313141727877156167508644960317046160398342634861648153052436926062434809922037623519108138661903145, ⟨bls12381g1_p⟩⟩,
    ⟨1536886493137106337339531461344158973554574987550750910027365237255347020572858445054025958480906372033954157667719, ⟨bls12381g1_p⟩⟩,
    ⟨2171468288973248519912068884667133903101171670397991979582205855298465414047741472281361964966463442016062407908400, ⟨bls12381g1_p⟩⟩,
    ⟨3915937073730221072189646057898966011292434045388986394373682715266664498392389619761133407846638689998746172899634, ⟨bls12381g1_p⟩⟩,
    ⟨3802409194827407598156407709510350851173404795262202653149767739163117554648574333789388883640862266596657730112910, ⟨bls12381g1_p⟩⟩,
    ⟨1707589313757812493102695021134258021969283151093981498394095062397393499601961942449581422761005023512037430861560, ⟨bls12381g1_p⟩⟩,
    ⟨349697005987545415860583335313370109325490073856352967581197273584891698473628451945217286148025358795756956811571, ⟨bls12381g1_p⟩⟩,
    ⟨885704436476567581377743161796735879083481447641210566405057346859953524538988296201011389016649354976986251207243, ⟨bls12381g1_p⟩⟩,
    ⟨3370924952219000111210625390420697640496067348723987858345031683392215988129398381698161406651860675722373763741188, ⟨bls12381g1_p⟩⟩]
  y_den := [
    ⟨3396434800020507717552209507749485772788165484415495716688989613875369612529138640646200921379825018840894888371137, ⟨bls12381g1_p⟩⟩,
    ⟨3907278185868397906991868466757978732688957419873771881240086730384895060595583602347317992689443299391009456758845, ⟨bls12381g1_p⟩⟩,
    ⟨854914566454823955479427412036002165304466268547334760894270240966182605542146252771872707010378658178126128834546, ⟨bls12381g1_p⟩⟩,
    ⟨3496628876382137961119423566187258795236027183112131017519536056628828830323846696121917502443333849318934945158166, ⟨bls12381g1_p⟩⟩,
    ⟨1828256966233331991927609917644344011503610008134915752990581590799656305331275863706710232159635159092657073225757, ⟨bls12381g1_p⟩⟩,
    ⟨1362317127649143894542621413133849052553333099883364300946623208643344298804722863920546222860227051989127113848748, ⟨bls12381g1_p⟩⟩,
    ⟨3443845896188810583748698342858554856823966611538932245284665132724280883115455093457486044009395063504744802318172, ⟨bls12381g1_p⟩⟩,
    ⟨3484671274283470572728732863557945897902920439975203610275006103818288159899345245633896492713412187296754791689945, ⟨bls12381g1_p⟩⟩,
    ⟨3755735109429418587065437067067640634211015783636675372165599470771975919172394156249639331555277748466603540045130, ⟨bls12381g1_p⟩⟩,
    ⟨3459661102222301807083870307127272890283709299202626530836335779816726101522661683404130556379097384249447658110805, ⟨bls12381g1_p⟩⟩,
    ⟨742483168411032072323733249644347333168432665415341249073150659015707795549260947228694495111018381111866512337576, ⟨bls12381g1_p⟩⟩,
    ⟨1662231279858095762833829698537304807741442669992646287950513237989158777254081548205552083108208170765474149568658, ⟨bls12381g1_p⟩⟩,
    ⟨1668238650112823419388205992952852912407572045257706138925379268508860023191233729074751042562151098884528280913356, ⟨bls12381g1_p⟩⟩,
    ⟨369162719928976119195087327055926326601627748362769544198813069133429557026740823593067700396825489145575282378487, ⟨bls12381g1_p⟩⟩,
    ⟨2164195715141237148945939585099633032390257748382945597506236650132835917087090097395995817229686247227784224263055, ⟨bls12381g1_p⟩⟩,
    ⟨1, ⟨bls12381g1_p⟩⟩]

theorem isoBls12381g1_eq : get_isogeny_bls12381g1 = R.ok isoBls12381g1 := by decide +kernel

theorem isoBls12381g1_ok : Spec.IsoOK bls12381g1_p isoBls12381g1 :=
  RLink.isoOK_of_check isoBls12381g1 bls12381g1_11iso_valid.curve bls12381g1_valid.curve (by decide +kernel) (by decide +kernel)
    (by decide +kernel) (by decide +kernel) (by decide +kernel)

/-- The abscissae of the kernel. -/
def isoBls12381g1_kernel : List ℕ := [3447232547282837364692125741875673748077489238391001187748258124039623697289612052402753422028380156396811587142615, 2512099095366387796245759085729510986367032014959769672734622752070562589059815523018960565849753051338812932816014, 3086251397349454634226049654186198282625136597600255705376316455943570106637401671127489553534256598630507009270951, 2077344747421819657086473418925078480898358265217674456436079722467637536216749299440611432676849905020722484031356, 162902306530757011687648381458039960905879760854007434532151803806422383239905014872915974221245198317567396330740]

theorem isoBls12381g1_inKernel (x : ZMod bls12381g1_p) : Spec.InKernel bls12381g1_p isoBls12381g1 x ↔ ∃ r ∈ isoBls12381g1_kernel, x = (r : ZMod bls12381g1_p) :=
  RLink.inKernel_of_check isoBls12381g1 isoBls12381g1_ok (by decide +kernel) (by decide +kernel) (by decide +kernel) x

theorem isoBls12381g1_both (x : ZMod bls12381g1_p) (h : Spec.InKernel bls12381g1_p isoBls12381g1 x) :
    Spec.polyVal bls12381g1_p isoBls12381g1.x_den x = 0 ∧ Spec.polyVal bls12381g1_p isoBls12381g1.y_den x = 0 :=
  RLink.both_of_check isoBls12381g1 isoBls12381g1_ok (rs := isoBls12381g1_kernel) (by decide +kernel) (by decide +kernel) (by decide +kernel) x h

/-- For every abscissa of the kernel, the inputs of the simplified SWU map with `Z = 11` that reach it. -/
def blsCerts : List SswuCert.RCert := [
  ⟨3447232547282837364692125741875673748077489238391001187748258124039623697289612052402753422028380156396811587142615,
    201108191058495518144571013292757616839939772477297675002910701750083517718909644806304325250888004212813140421495,
    59851081916248386827690969303229229617380000972363251255255481959939792995107069675012922940560481461835106934085,
    .none,
    .none⟩,
  ⟨2512099095366387796245759085729510986367032014959769672734622752070562589059815523018960565849753051338812932816014,
    1551342435858534729784927227788852219097370107944669290607801596324084743219314802216802331053307165227015530585080,
    33035924775680816823218488157802283584682970476296012403001548082864600983993889122616275915880518004756935508784,
    (.two 634530986740478791299734656779227183393456411203990691620903835339896056087916928850284110476869348558982467774312 .nsq 3367878568481188602118055168956676973163426408735017193711154300784135594402920935592403518652146315478911804785474 .nsq),
    (.two 1966689855249887828581131437666220482943340280729660388161220285479694498322207066911016212914888207958644813607096 .nsq 2002683775196098748013439899911881390028859568733051484767836302561472551184636908409055140298246938074492523443907 .nsq)⟩,
  ⟨3086251397349454634226049654186198282625136597600255705376316455943570106637401671127489553534256598630507009270951,
    2232793552207650421538232829415234954224175235654618928774796876549351572320607949485985491116882487686157549038357,
    791860854299765789776412294193093715150641274118027734758567353846960810050952707590357227230378317364080224950263,
    .none,
    .none⟩,
  ⟨2077344747421819657086473418925078480898358265217674456436079722467637536216749299440611432676849905020722484031356,
    1695916385094928240202209985231485519481662861660619550260412526321690051539763427115675534948197054056195660574399,
    158239613049929297863218320605354497885314485815662304964681331795910877411388421732491844577727299635668334077473,
    (.two 3819578007192291123631497165998161875578320889073027820913783393186596824854885040479916071013307378526484303780344 (.root 3140998864168905305116999238341094082253376923310959579796412851201896533814081908310962784672298826054629918684568) 182831548029376269786292659737742280978561930865980064418274742937434825635952823962771558115708285511409968779442 (.root 2271327980655849924096472376460625801249900033784935309133299460372536622850473967367201051801213471874555086217960)),
    (.two 625423364093714452438194874681150429118237597319081771165931919604741718069411486007067130894498738183094023145535 (.root 1627078508083490254318224556330168382612583685493102987037331932100530949593938800142015413725573270803374334213417) 3218746578078023643116376630449399229553330736804263809201444884723379055010037956703128653656789626219131915336779 (.root 2525265804490924914358547053632454365279379073546994372794255712543217504207818408931004631698420279628214454678319))⟩,
  ⟨162902306530757011687648381458039960905879760854007434532151803806422383239905014872915974221245198317567396330740,
    1670962458955106616963330080326405093668378128463561560663583535998874030007055973431690213028722640853968992567983,
    1748545097466775053522362390716605111418336778947200118852515342088083001911741462955594058672532494034856655593982,
    (.two 2098458814132913751173389378415797530361205377338761286177137391438755709570503618103511013079811729022356454751482 (.root 2996364799790106798135996267804732426571918304256045973420659328602593967274666773429484758551777178205846782232816) 1903950741088753642244400447320106626195677442600246599154920744685275940920334246339176616049203935015537817808304 (.root 1562001338336877267717400325455189014780228097985596277514975439801739125527323838522116502949589758528550231396418)),
    (.two 57344160075710059671049526347733366642915195682300429559425269066281372632673422608258636967966532787452419688972 (.root 1282200428960417699336277706457103041857880658103225676682217209856122071106589819601289643542687514346532690166789) 2196520297679182280224377908671565678495630845309507336920117524969667275946422978878834933488516637215585197276833 (.root 1575176923998869412532776039298450771881116864589013101651068123638915113652607670548729091460580079688736254283722))⟩]

/-- The sixteen inputs of the simplified SWU map with `Z = 11` that reach the kernel. -/
def blsBadInputs : List ℕ := [
  861410691052762088300790587394810074303505896628048305535645284922135116676755956131724844456716837983264353875219,
  1006044755431560595281793557931171729984964515682961911911398807521437683216171091013202870577238485832047490326971,
  1282200428960417699336277706457103041857880658103225676682217209856122071106589819601289643542687514346532690166789,
  1477143750730742479059242772103449791277503746392013512537802423580814146283019455511682997430595384409679817881468,
  1562001338336877267717400325455189014780228097985596277514975439801739125527323838522116502949589758528550231396418,
  1575176923998869412532776039298450771881116864589013101651068123638915113652607670548729091460580079688736254283722,
  1627078508083490254318224556330168382612583685493102987037331932100530949593938800142015413725573270803374334213417,
  1731081574565817469321317449275278355306982786154072576198758675751495027640363897075486577327802192163339186341827,
  2271327980655849924096472376460625801249900033784935309133299460372536622850473967367201051801213471874555086217960,
  2375331047138177139099565269405735773944299134445904898294726204023500700896899064300672215403442393234519938346370,
  2427232631222797980885013786437453384675765955349994783680990012485116536838230193893958537668435584349158018276065,
  2440408216884790125700389500280715141776654721953411607817082696322292524963514025920571126179425905509344041163369,
  2525265804490924914358547053632454365279379073546994372794255712543217504207818408931004631698420279628214454678319,
  2720209126261249694081512119278801114699002161835782208649840926267909579384248044841397985586328149691361582392998,
  2996364799790106798135996267804732426571918304256045973420659328602593967274666773429484758551777178205846782232816,
  3140998864168905305116999238341094082253376923310959579796412851201896533814081908310962784672298826054629918684568]

theorem blsCerts_ok : blsCerts.all (fun c => c.ok bls12381g1_p 11 bls12381g1_11iso.a.n.toNat bls12381g1_11iso.b.n.toNat) = true := by
  decide +kernel

theorem blsCerts_kernel : blsCerts.map (·.r) = isoBls12381g1_kernel := by decide +kernel

theorem blsCerts_us : blsCerts.all (fun c => c.us.all fun u =>
    blsBadInputs.contains u && blsBadInputs.contains (bls12381g1_p - u) && decide (u < bls12381g1_p)) = true := by decide +kernel

end Redox.Inst

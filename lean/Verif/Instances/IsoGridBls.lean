import Verif.Proofs.IsoHomLink

/-! # The isogeny `isoBls12381g1` is a homomorphism (generated table) -/

set_option maxRecDepth 100000

namespace Redox.Inst

/-- The values of the polynomials at `0, 1, …, 44`. -/
def isoBls12381g1_table : List (IsoGrid.Vals ℕ × ℕ) := [
  (⟨0, 2712959285290305970661081772124144179193819192423276218370281158706191519995889425075952244140278856085036081760695, 2955185177626169647543871026716143749798776473583611826109464091094397474242531465369792566109106337274460167892487, 1393399195776646641963150658816615410692049723305861307490980409834842911816308830479576739332720113414154429643571, 2906670324641927570491258158026293881577086121416628140204402091718288198173574630967936031029026176254968826637280⟩, 1353092447850172218905095041059784486169131709710991428415161466575141675351394082965234118340787683181925558786844),
  (⟨1, 3575667056541267137288462473476097168878397165676471677123265256336148367408652245303595915894609587363141918956189, 423013105079995984695660353957384790315286218427640415732384960560227080959891251463226497843543283242283649516900, 1495252440648375146117773058329751010973983752590738065724232145061170001121219277794974534579637114139066688597428, 2918860660960821190020487035388162912997701733765057986256388817993571576486730294713747741862491642236870014760958⟩, 2952899920824607095897422713267603277780901165250823949751553132524379772547679260794069718749553325181793620858375),
  (⟨2, 2289620728428899336769206001556120352937736630161152487614403498148920400915662090698311465709950469574410173377558, 2449340642482127366192887140352010924917204457661736856300758155857503169100295888681377723876396551626563541206232, 1799574546527523862707576712779863427786810402124819152471698636629298922882637510927954295826349541868595775275503, 2931050997279714809549715912750031944418317346113487832308375544268854954799885958459559452695957108218771202884642⟩, 45292247521396664941867126502922682578334283944374479456998790649456933407080723978928915063922601703797460287148),
  (⟨3, 909096468375135340533533174531991365750843144718904493899005444642975411641871739669102356243744635383759909179482, 3537997478696551494864566340343501953978116632945169620824127617251151056988981871829237582194247689431343374599319, 3350292079573524943597046827601191949805763100263636036718336760941431008808275500064018810688633117827435372797352, 2943241333598608429078944790111900975838932958461917678360362270544138333113041622205371163529422574200672391008338⟩, 41049743153146592519667951929713777057193388072734534813980413229918411499781040354170255901623303175106089432098),
  (⟨4, 415381428901187779878021815538524023070888010400170172695244102230476124757730920028765497904113156901491091126811, 3499150358052151084853860111964689467323021713183748306365756077696688448175392881551701061234121229369257657760316, 388689821138392091316062629711706182335665808704697097986833301049716793345994217963367772896397372868875439072392, 2955431669917502048608173667473770007259548570810347524412348996819421711426197285951182874362888040182573579132052⟩, 2088139500303592065394612665611723869311556475823295006380951500405265301895262476410154977365248638294360815235010),
  (⟨5, 1168561180309473662419399166914941980373389447865212870867154652132670540125152303138587541960600582297108231765440, 3446893525121036468200287991101852687671449374590815748710566926716193780942341919890879170754469025823637602619030, 3607846345007795799031477373844963503291881858055655720385698973801712865582963967221555453189540371750362640127457, 2967622006236395668137402544835639038680164183158777370464335723094705089739352949696994585196353506164474767255790⟩, 543958907454773368919705258111842512809313811087251709082109201229837639711012438916222203574283159685504337056724),
  (⟨6, 730678213379625684312260805792647157576971136091986842155495702127199400890618941169265025464637536971782475324870, 1796839169496878201421937065758814314080577180748240137033086074274274577815173445843411312706154590810616852411253, 13330425187068546034940291093950407087835646587639676634177417363056924534722147822768329034410443849942981394644, 2979812342555289287666631422197508070100779795507207216516322449369988468052508613442806296029818972146375955379558⟩, 1756661033057077597118581587021749139810201118848851321887169720530311567884330179253842752577185533200383962192143),
  (⟨7, 1812401133288872986520329233139276468840251829653713967064383557430564232722707329629017024541305172118804236310597, 2270936536238241852351041627528748835058996222484430784561558223026130746543439104245840539490484422054920026798456, 3548479730097815539384290498461161586219243612079371040583416336275466891202416180157003725878163171034801061088148, 2992002678874182907195860299559377101521395407855637062568309175645271846365664277188618006863284438128277143503362⟩, 857566523861816803643137474138837414588982865480206620934918884788501479162802455265047375022160744733501417563371),
  (⟨8, 3127064451340050197910977593474688908019280685889930678598472468751364240886358324805458173756980552232098473355534, 1890243260203585819880613694386470058896062658057314472581772459945459628628384132446550666572161010876179904188548, 1509979157531345581451946329072256213794343002916594615210446111325349701517975247661363909080155137985778059328518, 3004193015193076526725089176921246132942011020204066908620295901920555224678819940934429717696749904110178331627208⟩, 319447362675267810457168526472331383598208202387246308705154352704400415250457845140287821520076040100180926167981),
  (⟨9, 2606001494773971860574620560937853641053258898527674440659483166045578954665759035193941044916143815154137175719440, 2982154031716263514217812487896143583332546172971359106433236664696550950795460953633829159866329834302620239415357, 2202679592955004389564315082995203315236511029329401653178813815186561234892657621183266730996467367503153338739213, 3016383351511970146254318054283115164362626632552496754672282628195838602991975604680241428530215370092079519751102⟩, 1945839417729974099962819048604901693337137975613993932599850382557184900492201594612092615927569669060784698930365),
  (⟨10, 1788442442073976085836457140053017799272577281660355495555567803970744823227534455738019713124277157216481108876598, 1173171930899521176630574956003574325889981520160550059513003101262191873521815583507804248351532362957372946059389, 744679624348538265936810296903603101386658112770494875799213275886896617502066926800973817519353563532416612931937, 3028573687830863765783546931644984195783242244900926600724269354471121981305131268426053139363680836073980707875050⟩, 1044974037985369050838348136035209379051398805091941119219692413471463313710311223363678479971852670988359020748820),
  (⟨11, 862678894365637311015626337509373968632122101520661799137752800185667725439720678603371819594378520152022756144282, 1398546648563167453118775075979823150098199799744421714603900962439793592999639088051195440585768717210055186687096, 1048150295157437703316432989524719985300985115526922077806614651775884539709721459401099500026621269006114359442768, 3040764024149757385312775809006853227203857857249356446776256080746405359618286932171864850197146302055881895999058⟩, 3596373146358691617326639430221084221465971460586098716495431002297574616629805548148561646377633061640548702117020),
  (⟨12, 2689791071088213807436670331814527265020379517744502184942820032670540357769753787915363577176006149999100185979923, 1892636265316903820743064551477590239267797179272025922546303825345264739172816125758563008190435011025192282611848, 3737566896066222456006151233210490744902499876313196189076805344503262941657573062237487081127969828091635328758965, 3052954360468651004842004686368722258624473469597786292828242807021688737931442595917676561030611768037783084123132⟩, 2255494242700402150028535856283813520450445346612430631979199834896468314180251349746994216844108506274032736273123),
  (⟨13, 384924227614949636788368686060103735463600674887533897595586768807601984126336792020350089097932186049639142544471, 2193726362013659374460452464003023409603900533599947772902245923661074676718600676521683244108354680038006259013627, 1593186803202251337021994374620454508947531800011627757995240818771006371190284355254751346382210772744421084625923, 3065144696787544624371233563730591290045089081946216138880229533296972116244598259663488271864077234019684272247278⟩, 1252396312777591493418868186857703711823811630864422123251623353980117309616233909530051969048315352924757082244937),
  (⟨14, 2403980291989959357978926189114286043603900096559131724503139086094832267065677885425163718919997453154156431693054, 3144030019749590827124305272915718110206167444892305593955422147636253505047616041629548462603778481554415844939147, 2977086037840233317481494500625660820589506570420137209947321864109439376668429192168944866730912439608007947857559, 3077335033106438243900462441092460321465704694294645984932216259572255494557753923409299982697542700001585460371502⟩, 1279658451915773512572021400141387168792181158711379433071892549561006815667475453758090627871048793650990613994579),
  (⟨15, 3361907969457448409787054630272193576692209822886824086417865652419444368486672107142538119906534666827989407624841, 2887278264642415116066556989692813266511903382681743067379129907962360407813016979325679370133368830513142200742187, 3952068134699225544121491531141170279500127914245476660267372389699931063966615310483497434436052058442379922785808, 3089525369425331863429691318454329352886320306643075830984202985847538872870909587155111693531008165983486648495810⟩, 3730296663849079712893366773252465614662365080054002047379605102974227022800686802850526396540665487151262411114561),
  (⟨16, 2682012633663050566873544021636084005660242325593404974444183033621278825445861296846314372382699681145556341291062, 871129623053076796515499003664895436852944523808437113568327271897515303401327569250812694475215463523603190643498, 854500961034893375173757094375377286839752734997858019761404643182524511621111303834296948493946597902550002938490, 3101715705744225482958920195816198384306935918991505677036189712122822251184065250900923404364473631965387836620208⟩, 796033945264464756676725219006619597409885642904692771396793031740580437449705477866840157048121920044566017328273),
  (⟨17, 2933375587828180977804845517024775535024812779746061690063361701330803069497845328487677487922647047348358941904400, 1849579676807415435013569907751902969012540572359105776971691099390430495423279076885588813857851102903807655290710, 1460202332617234608368327873526706194003231099806985368907009928689011903666224995206012365024933949377268379319909, 3113906042063119102488149073178067415727551531339935523088176438398105629497220914646735115197939097947289024744702⟩, 220578157550492364496360411770302721317505154157794342410243407138188337795446069373866625421218166176843409248053),
  (⟨18, 2804088750618894333355893048793088323387050931257744705999856253598034510861375360074400898110758941376469912569551, 3875732397531163429163986021255413530554706299849984570095442634708315721241296360222488869573204464566672594079091, 2830033785815705593698566973964860041674517973525820751314028946686095191291756313491738233117416242871802571125031, 3126096378382012722017377950539936447148167143688365369140163164673389007810376578392546826031404563929190212869298⟩, 2687824462873865156269215659689876610222139138044699550128316405212274554741392973801109860742688111919943764772899),
  (⟨19, 1320474783987409009905691486357714774311997031213852104590276460136631466165627965718110265358865324550217274733862, 2304209701871613401048531215594548265381104365165834358835405642560909802460335734208522395105615922057917437711454, 395208490158740621542893500817782966756190228511209697443657293953659276667332682069264087298281207596455765768466, 3138286714700906341546606827901805478568782756036795215192149890948672386123532242138358536864870029911091400994002⟩, 2209909109393846220095144657631643303967524909167552597978188784458043431997696840197290889153445991255879499207776),
  (⟨20, 3993255688706613748272416964796499182400159541050349773412605426815103369004659037976200837897333267900230245452574, 1798380117162620377480926391513684263401693774376965018473180816472575596400398564073290203518884498669746865877638, 8436560267032213970400333433922483787747065350079572270183637679294529162555955570811016646719574220254394730240, 3150477051019799961075835705263674509989398368385225061244136617223955764436687905884170247698335495892992589118820⟩, 3156376021812668239222645503380963925176248167580033388835358435683801088830147597333565286984960220639807563633466),
  (⟨21, 2239044140397641429951171846412673847374633313992176669419280777630982698434358456584709245269187590960014673934769, 320720560537932216335670176138837934307198600983203892347913234286173394133179807558233870940205211289273717015480, 3085940277130856699125086061790873787884555598603056647805545689094855172369742998585833578191831419585023237523101, 3162667387338693580605064582625543541410013980733654907296123343499239142749843569629981958531800961874893777243758⟩, 1889998077957318430851428351878286173625071114170006103041115769662752283953849936126544263999397202672875394264956),
  (⟨22, 3292306591086178601415850795044994273460592152338107862918424666898037371014814046498653897120971148239615529543043, 1140045004596191786801408400185377477239756445730919447852466766535155871954581608244698623947216062512201805990296, 2096387490091596570941956934338289066693960868728964771530509106070453626639628629257198984686628675702603970014751, 3174857723657587200134293459987412572830629593082084753348110069774522521062999233375793669365266427856794965368822⟩, 2428946007231415731175883893536179833265971853522886956455497024329315375943808996428791488869392556779293434169016),
  (⟨23, 1532805699640413328070597230116425975839236017864299411313265003428198066797273778686086472475136037515693638154556, 824275811735934789127564620750310411122269976795997620437249668071473139912199702225870452180951048529143106415640, 3690358235301741135061378613507342240309794387345328651425943127852934702248332077869742964278644640239639152726053, 3187048059976480819663522337349281604251245205430514599400096796049805899376154897121605380198731893838696153494018⟩, 3886016234290184290227240770714462573809200404910615421846878792446011792857868983873648545954420410391831204619051),
  (⟨24, 3386313580724504923422103917380614392274652925687124511156376008563768471896318153506765327939477735956980176270790, 1247672399820591934877709598519996044329055389600865469606388986437667693277837011434838995732887151239300568332785, 1030541269564066006302462207477182809626763583055235469381178644169989716608198485479175887435981779632221622477648, 3199238396295374439192751214711150635671860817778944445452083522325089277689310560867417091032197359820597341619352⟩, 937480448220196414657263831010494994713685512618060478645944799991865421403754983672955258867653958229482738470332),
  (⟨25, 1825705376575731099789597828578177155719740813969465663365179307793492790036712213690578092896993376239862921872057, 1586012131735154160093981646298337161572076766936475408253614289618811111565827914759222286886913010174679573091269, 1160423491625244086766847798952965869508336103739998674339083406700298720936378152425137485717635938655982350280294, 3211428732614268058721980092073019667092476430127374291504070248600372656002466224613228801865662825802498529744830⟩, 1020306013011873635350508137973743378067303560219817402777790409343816257792589086437840024148470050538248185250143),
  (⟨26, 3509329397951945396180163592938234394396497318659821183518447521180566068288178867120751314307202588083040996348200, 2318999870607840018714876454742684180457828898901313087994315802166535709023876112483854379248344586537982205908802, 1368635585991238247728772047062723414873968486517575617325767680801643505173434458356227531741318784300962099028472, 3223619068933161678251208969434888698513092042475804137556056974875656034315621888359040512699128291784399717870458⟩, 3419304205846718382189100691254875684891330847825887779893171563359861043131322029504888641431817024797659737597634),
  (⟨27, 1587534633871993098206731846237420593209497223904806898146989462233723191469667963563001406472852837281922432331622, 1227858424588428289157457266627930994930454462962389513833486269075002884142216761848097718614909499164712983311599, 3856994835205490773275436013558613273371352200034523721867062612502728730810169325493129930793988938713526495346169, 3235809405252055297780437846796757729933707654824233983608043701150939412628777552104852223532593757766300905996242⟩, 2003260881544603097895474310109274618157101463736072203119201596804032309867096243594351732158305887228661070315607),
  (⟨28, 1406016485369985923088835327779338900750793047316861173567431635742553111347395722510027195590514145965478851200319, 1400147657291592761152934528318323288385509663833256814829837228028966420635292205931218401234778352598967398254074, 3731613241214766770860324483022670511948952375295936985223930978251863922260089358405202301266082146252519628399842, 3247999741570948917309666724158626761354323267172663829660030427426222790941933215850663934366059223748202094122188⟩, 882021989257435715625551964625642838582148357930323935223861132892036097741389814619046456357674853024351427299266),
  (⟨29, 1305247493278611192065736801344623184281579641208123130132827686029346206463320567082159971685185035547862955768631, 3224945377353567448911086238295650220556198593595992473431682737155709186460076244767010915548533409017643374999386, 2567571446801142086349769497400591851822436614493730560242509558738045641852929034031067676683485427564894619577562, 3260190077889842536838895601520495792774938879521093675712017153701506169255088879596475645199524689730103282248302⟩, 2824598614010859079109384890724780736377118560838270024096885050276223286409479561778130355846124681761796150081579),
  (⟨30, 377085460693761325186307612190671706165516525746978150767382600518323669069072641826460398254879619778234428300908, 390437783210479197702468121423340270956490411762191440144881238901011483325236270901110513060152924192546996559772, 3841618512128895584437752754767820453694639746643519320489736933481045186889895727043920253222224028335473127933891, 3272380414208736156368124478882364824195554491869523521764003879976789547568244543342287356032990155712004470374590⟩, 3937766209310338000905031483910198881896767085960722239672798291390044794693873162349288209240162157508998906706935),
  (⟨31, 2807506108210324583363185487088229212815442857417514471874695821506947149767560528984032589087259027294977428748261, 3898376794428352044365152583361886178222416264907013445525184376773340949636160456047118983111105131717758140055389, 1293768866951029468518774944152914885660157881068081151555130786281846902528098623546758716745765369099590278586521, 3284570750527629775897353356244233855616170104217953367815990606252072925881400207088099066866455621693905658501058⟩, 732473111437004169437245120419873416207324092269871597925124144409622638336163934259007693926222595783619254193895),
  (⟨32, 708621296515836537652031610727923545287856398266280480511526277754352833687862190934780130293220080289590179470539, 2039984499486433283126830453209803374543241087279104146857655634103536055586579106659728361590191602630687751116564, 168605893764258618220817820712692566605076568461898513563651491068467033296221353880556444962723973155134432512046, 3296761086846523395426582233606102887036785716566383213867977332527356304194555870833910777699921087675806846627712⟩, 3371521382690320438051222649168383739068098140124215827973770515760474883324555588401467657277923668848036359836656),
  (⟨33, 2630079964136361830227285272588275370397903215009874781044957662111692133834496710975254441148251644809049291961358, 420048707993867399782709240862671551230291800190673981477251695285122608066943308361597222223703885791020569481784, 2436790166778369787545224615854474937833048296047850306041943484711067355162317761792658240252960653298784054721933, 3308951423165417014955811110967971918457401328914813059919964058802639682507711534579722488533386553657708034754558⟩, 3567523857028983438309773424850038028054731013431014297685613984612383074514033610479872354433144158384174448934727),
  (⟨34, 3936337753849973815808847207674972260494018131523346284515699390304001678223629483036738936352933704131066493979876, 1944875174581359104606564008333613875932543212322458740108531765154155498210235603729912530930345187691243766198881, 2501347842273191754607662937316007156353818190715846447202364466244519235214962217495373087591758227986633772118260, 3321141759484310634485039988329840949878016941263242905971950785077923060820867198325534199366852019639609222881602⟩, 3427238715396883166849401130214738615381142977374664876002778126482753138282258928978406231443146648616879923887489),
  (⟨35, 3583411557852944532501015873077419285674704256382609470916909917613600202810229934469695867708036397382541283398612, 2819878043679505938932947544017392836079735199784711681533599432865187050901132127853702016692214708418752671065365, 2444769618295825691994199889852118293379086949257793153837892845068291913050651759697494234566109925962614855012392, 3333332095803204254014268865691709981298632553611672752023937511353206439134022862071345910200317485621510411008850⟩, 172470602798942941543002183594971670772658243925724374119728244172069033186913556434025755136432706027693139524036),
  (⟨36, 2693225814488475806025190658763998678081857381245099883434051626121430722882402637290912407223131303256631337330041, 554398959962133061992770014162218551996138345995219303256218944139330325757678337219209429812838969731639317748118, 3743348075178517630272948278930055414253743405809303098539261375420932899738829279081993282185597672320786245133693, 3345522432122097873543497743053579012719248165960102598075924237628489817447178525817157621033782951603411599136308⟩, 1566620707029077657874242136076213735311814614963846785640125114350186147268631199575696949113908921121501312047301),
  (⟨37, 2069688774341699594734948462953989775256496005245717908257768779953789178650933839841382053540186152006583505454774, 1966526178789628037748878614341557090014319581557317112165931473512322418112964738595269800175203143134480988903088, 1210673781417439771444617728218031506232181064278070674697666402227369178582341205840619596848119333560516972274394, 3357712768440991493072726620415448044139863778308532444127910963903773195760334189562969331867248417585312787263982⟩, 1608356965170869178526796324537387398838913996106280063538989280997593176917820684893344074815448450493718199481887),
  (⟨38, 568313496906174066357873711860811408583208867642095470858421514205432939936239163827236825259641880754950062856054, 3171046790100603867807108440774609679690728084564850197877764443714366206560937566819871291596672729688868853376474, 2141794512140068783103136046874199283768559206069102152273158096227348841980707607974692372307741472769844461072780, 3369903104759885112601955497777317075560479390656962290179897690179056574073489853308781042700713883567213975391878⟩, 3998059818392645724823535802679722391672064453655980626268252174054356097155181157291654070826514647644711815542607),
  (⟨39, 803988236799101801467265082219937863144843399147919079217348893994836657239517855432367919560605468308941743663977, 1586675384076901171669651967534025183476343740419196888728405934042225304428912378128218089216040552127090783884207, 308200350938214658467961850871733718720635124564335005486281185896898138823362769375754528407472871605129363938067, 3382093441078778732131184375139186106981095003005392136231884416454339952386645517054592753534179349549115163520002⟩, 1653149862675684360970032104366821521015048532228613523544909123196181768230457069844962271884664762538109920448369),
  (⟨40, 2105526421408928532184560507667127079813514665966944566240466649565815974961235628902928076529469336736756017256555, 3940873161586922973570638698017708409830442781707284522440320952607287360759249779038105657751558082927919902131644, 1484306244333429523341343952030381959895643364114334067849992116158147107965531510998738741040925273479616657746502, 3394283777397672351660413252501055138401710615353821982283871142729623330699801180800404464367644815531016351648360⟩, 564383951517358525758874380163216464343437330973077262028857858223408904027776405326375039848198065393957800425460),
  (⟨41, 400018857976529765073134667976369743455062189624500028635971388376593444548551844069938557030959867416159671938286, 2255390602855630341969396210533395173879300868567542134129402619591374157364328239693794966726841460089248943454966, 2069191837426916449337478184368162493078904190713267731530969912781197839145300058994097418783543770550987634085087, 3406474113716565971189642129862924169822326227702251828335857869004906709012956844546216175201110281512917539776958⟩, 3117814966883430043109650907892286569174813402722322103125756109037116766509617484338666267238165910901303390462201),
  (⟨42, 2567640817657564749697388619079089161764994651898597565311220876102742118267470870827444166268405440007492275721013, 1863134354016214143474978938449981393314372828262955653629379120114963162262409144964825894373981135393350164739807, 1277863790056052167308342864947461536630269483803170934061771689795672509798950449011836024695052896207923690803504, 3418664450035459590718871007224793201242941840050681674387844595280190087326112508292027886034575747494818727905802⟩, 53924198320457046489365157761290332823433182836420279328455900052159378323305753569776066148005771180196088287018),
  (⟨43, 917446978067561258641712823578397412012496145436675226308627613728460596592219289708024728036905945315503294405296, 1396119451001758075757219041518002305607878555486028478831523023617029277223447472232579081988463554217403981622439, 582906564299139278529012489952808380033101407008229355519177934006159506409949156584578565059952404101278868058043, 3430854786354353210248099884586662232663557452399111520439831321555473465639268172037839596868041213476719916034898⟩, 1219355206688705539833704532492446142971627079942189218652084421896145456287597700022863981495395765062466310797497),
  (⟨44, 483897563449453111533344719312121630791377429236659940303795571846577990192398646491550658266546996658176200512829, 790288429988573454382306057341440781126568652236797246348767556103108138750767520275651192187202483609287513609466, 527199876108145266947753248232278016503163502052539446046507417353686254132072518391489415652006341550363235650990, 3443045122673246829777328761948531264084173064747541366491818047830756843952423835783651307701506679458621104164252⟩, 3211799750654686823248855860313537715728530768623243372143223318606508166680743147456702059058707337972945686495634)]

/-- Points of the domain and the abscissae of their images. -/
def isoBls12381g1_images : List (ℕ × ℕ × ℕ) := [
  (2, 658522096176515125667361255350269797307718222519385801637008089782287711363858559738763090642304321670226247205569, 1384268032843187931577744935794021849477093533132643028447960422504097372357464892278764833258943292598173897964446),
  (3, 2215097242039842321703111740104080475264374680455700034371686752767108868997091647694598095906478232668876238654778, 271565336849931059588915044877625053662678389824554961638182835620188001958334244541803442652627245554921774754070),
  (5, 1217463964307972869355670147467520852825753099424595429974586581608261784404482648639156777243990187270563129348007, 1572574696254771555718424867741681011338750651843283893367625351676853102347438349425527091816447519909346026460634),
  (8, 2790129970121119771135669942046044733698969589032560092698257454989281494771826612822236072606215262543290329333685, 2063204076655664945152932301644367747323776713896324729713560232286523234638529479860999611716261573891271513705397),
  (16, 1879238104638456033945834783080495416294393199247204850636929320367180396420658005908696425808216320639047838503716, 3590659170568923704811311428280029377818167592431255067831132855262942031897960388642254230917266637158151920292975),
  (17, 605434714685435737358364307714088680524670127578218491198298092374124025942962880466094568402839134949764026125064, 297705166290463942289457025048070374630222889124879228975285041770818121392265060557518207127752007299599872840451),
  (19, 761904863144089943121097666749548138070128046766774081336925193465233446735197527998296591958737916356237751435996, 3684038928092535824670044728286347347275132561843323257693643962816298321397865285754785413011267177879468897576577),
  (21, 2595197223307433232405644293510448689517907195164532504856827768459833801244285008706054047544878791832027358037385, 2717027391636757393182419984700667102186824995379269584896778926084118208162866378375207418765314815153542600751807),
  (25, 3376275469172791570996128299292330442492652716650185168641726036071604417499925969418199855675536917788261704643386, 3059775926005733703942558135694620973307140912485110536393717146733393671552294250884973633033213363679651436988305),
  (31, 600908516622616668308484416155817479299193449498730153621117299036737928470899088748313463493992287505675361027077, 911705620093510340830683183427673248762867950389245043159030570346492764309904971394033641855626355865532508577723),
  (35, 2700807863837429622827555436390056252432905690251843440697411683734120057784162571290812006358958922245978840314853, 697354917285299771045969343863781686561197502419199158309367233973540680093653213248230438745277053684574214072424),
  (36, 1582155356111581168531414718305529148852353934353124627080128397454788046370948808164596483849652771710070736467815, 3613247523535875886425176676227738075886242424712255613321197507678419185730663003060392599867066143442018101429676),
  (37, 2416138955203969167748516089351358329742203257592645486012720468207379848918049889368919350437905753717706020299483, 3103202718858081826847604532482700468509461147495105416019314458969672748139598689367730106328294111451660991807565)]

theorem isoBls12381g1_grid : IsoGrid.gridOK bls12381g1_p isoBls12381g1.e0.a.n.toNat isoBls12381g1.e0.b.n.toNat isoBls12381g1.e1.a.n.toNat isoBls12381g1.e1.b.n.toNat
    (RLink.nats isoBls12381g1.x_num) (RLink.nats isoBls12381g1.x_den) isoBls12381g1_table = true := by decide +kernel

theorem isoBls12381g1_hom : ∃ φ : (Spec.wGroup bls12381g1_p isoBls12381g1.e0).Point →+ (Spec.wGroup bls12381g1_p isoBls12381g1.e1).Point,
    ∀ A, Spec.IsoImage isoBls12381g1 A (φ A) :=
  RLink.hom_of_check (rs := isoBls12381g1_kernel) (n := 11) (ts := isoBls12381g1_table) (is := isoBls12381g1_images) isoBls12381g1_ok bls12381g1_valid.complete
    (by decide +kernel) (by decide +kernel) (by decide +kernel) (by decide +kernel) (by decide +kernel) (by decide +kernel)
    isoBls12381g1_grid (by decide +kernel) (by decide +kernel) (by decide +kernel)

end Redox.Inst

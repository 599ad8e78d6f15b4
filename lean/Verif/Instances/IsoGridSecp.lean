import Verif.Proofs.IsoHomLink

/-! # The isogeny `isoSecp256k1` is a homomorphism (generated table) -/

set_option maxRecDepth 100000

namespace Redox.Inst

/-- The values of the polynomials at `0, 1, …, 12`. -/
def isoSecp256k1_table : List (IsoGrid.Vals ℕ × ℕ) := [
  (⟨0, 64328938465175664124206102782604393251816658147578091133031991115504908150983, 53752591420737253357354794335102420694228939304826821434373703395273947362954, 34308767181427020866243254817389009734302217678708315270950395261602617680444, 1771⟩, 95592507323525948732419199626899895302164312317343489384240252208201861084315),
  (⟨1, 54082846629029452877358771507989095931369178153224796086874101061149076196615, 53752591420737253357354794335102420694228939304826821434373703395273947362955, 48974379967025442224293765803632922215932562558181131123019942827330512670309, 28734576633528757162648956269730739219262246272443394170905244663053633735711⟩, 87305600927684260023557803288416828837352206261356568213530074990840921138561),
  (⟨2, 41995220038251755250764463269266450507630119035318851891669504958490813143191, 53752591420737253357354794335102420694228939304826821434373703395273947362956, 114182376147448651691835670533906675247370444393940095306991730261311118631385, 57469153267057514325297912539461478438524492544886788341810489326107267469657⟩, 79018694531842571314696406949933762372540100205369647042819897773479981192809),
  (⟨3, 66663421771947969718946839735999092931689475682407113227237397476833063881266, 53752591420737253357354794335102420694228939304826821434373703395273947362957, 11214364941099391246568219547355331772439225484219697970556987770827747850531, 86203729900586271487946868809192217657786738817330182512715733989160901203615⟩, 70731788136000882605835010611450695907727994149382725872109720556119041247059),
  (⟨4, 50892725671907299332858577569061751301367258317395870733939389277569938629732, 53752591420737253357354794335102420694228939304826821434373703395273947362958, 100312401752961379984045588426563494001312191455457249458694865602707885972921, 114938306534115028650595825078922956877048985089773576683620978652214534937591⟩, 62444881740159193896973614272967629442915888093395804701399543338758101301311),
  (⟨5, 33280494817235142567023338438017061567753461828831979091594675030004382279144, 53752591420737253357354794335102420694228939304826821434373703395273947362959, 46966006564121164458396042701988317024542719940246675879639009956326010613751, 27880793930327590389673796339965788243041246696576406815068639307359333999928⟩, 54157975344317505188112217934484562978103782037408883530689366121397161355565),
  (⟨6, 52424092287036897895964784012427659681938081105262292980022449403439339720057, 53752591420737253357354794335102420694228939304826821434373703395273947362960, 95625145542246268341602772947526495199034111899384723538910987070600772746532, 56615370563856347552322752609696527462303492969019800985973883970412967733958⟩, 45871068948475816479250821596001496513291675981421962359979188904036221409821),
  (⟨7, 31128791923101768370635590953168273741741126369593103039584323059268921171363, 53752591420737253357354794335102420694228939304826821434373703395273947362961, 27571427905739433611365029702323091468609729631105882584202027152815484658123, 85349947197385104714971708879427266681565739241463195156879128633466601468024⟩, 37584162552634127770389425257518430048479569925435041189269011686675281464079),
  (⟨8, 7991956804535152465559420929801539698252592510371263950099490666796071523617, 53752591420737253357354794335102420694228939304826821434373703395273947362962, 87254819822268183939666003540274800190172874096206899321033696441888797322035, 114084523830913861877620665149158005900827985513906589327784373296520235202132⟩, 29297256156792439061528028919035363583667463869448120018558834469314341518339),
  (⟨9, 21610950010442448655259935611890093502562474416143630391387146895323735667374, 53752591420737253357354794335102420694228939304826821434373703395273947362963, 55956930510235261304204945000526684307546907592922263897097225145104023025127, 27027011227126423616698636410200837266820247120709419459232033951665034264625⟩, 21010349760950750352666632580552297118855357813461198847848657251953401572601),
  (⟨10, 110583134619929055414260796668996571105760766975457057043266486414154858493189, 53752591420737253357354794335102420694228939304826821434373703395273947362964, 62335636899991993953394059648287530324365146416408158578456595493470978069247, 55761587860655180779347592679931576486082493393152813630137278614718667998835⟩, 12723443365109061643805236242069230654043251757474277677138480034592461626865),
  (⟨11, 81921695237467980369943695753307792752397495745577270506641535876774715548291, 53752591420737253357354794335102420694228939304826821434373703395273947362965, 3464637447257319288503583031390309037720937530539637552260621702181809412917, 84496164494183937941996548949662315705344739665596207801042523277772301733105⟩, 4436536969267372934943839903586164189231145701487356506428302817231521681131),
  (⟨12, 90016084179480817420403279543074302246832640280691689500789073960395086394898, 53752591420737253357354794335102420694228939304826821434373703395273947362966, 8001809082382565557945720715043806951247597230472883084573286002246333357985, 113230741127712695104645505219393054924606985938039601971947767940825935467441⟩, 111941719810741879649653428573791005577689024311140999375175709607779416407062)]

/-- Points of the domain and the abscissae of their images. -/
def isoSecp256k1_images : List (ℕ × ℕ × ℕ) := [
  (0, 60292507965592669778922440460031988944672841799483598887764708452713708382965, 21052187212278808821644119806969189806719997285955721345012969497567749949391),
  (1, 10931162814563479916725657473632386416945440111739392308145419224535295140289, 11221582919304351114488299062579119249316776762765184340125491969405872588602),
  (4, 9925102402812900989469233141048365716219212881570564707188593731394621212139, 37067030652237648394041894491306995424234262997979440072122195120235074614952),
  (5, 27465682829844916782445757062339271122340139977732928588953091849124254333787, 86407645853776739296678173713865562336178406478777786475972561157341144672814),
  (6, 11469997244559148866364625500998961019099203908614020013529831910503160757743, 91382248400481199847946193655229088310158186236159818673585629432019189172449),
  (7, 57752324571775087663971453110051039021895907840159551749176428135335407413819, 4432036300495169237572743476382576329563094985304619977659897372607173829904),
  (9, 39796412296238522369214646982509227156488121244607268802234412818485497411906, 19447919148702269680543549946489850876456760624728153951691354195668843614503),
  (10, 11404875670625616637628620956640516504038980131303465612308496179829928244698, 10833244857056723803480522357611137735168960926018223516574448808338516753503),
  (12, 66772666767709472655986825358906023267792795168897842417661005778737336855430, 23446009026735344401695205167411851200528742501648969533220007772279422308711),
  (13, 1345602135147661344061486641282927581192731933003947761563239188503965826587, 2647473686817326089602988395944961549123481106197642089563094541521000642813),
  (15, 63385475336432799522626031813991549786494935921258938383013809434667215226130, 73183773729520110448599787461538921168404616451107414789076203615246237150341),
  (18, 5140018287740527488018463199845639757356350895754024250340209180319482874480, 53776277121957383028194330533813429626077323038280072829649701098236962498784),
  (20, 68727362457547659333470284823689914452099855946651516109009945053147909079678, 44086721665975427808744892895462126795431757869297530822334764911795306079972)]

theorem isoSecp256k1_grid : IsoGrid.gridOK secp256k1_p isoSecp256k1.e0.a.n.toNat isoSecp256k1.e0.b.n.toNat isoSecp256k1.e1.a.n.toNat isoSecp256k1.e1.b.n.toNat
    (RLink.nats isoSecp256k1.x_num) (RLink.nats isoSecp256k1.x_den) isoSecp256k1_table = true := by decide +kernel

theorem isoSecp256k1_hom : ∃ φ : (Spec.wGroup secp256k1_p isoSecp256k1.e0).Point →+ (Spec.wGroup secp256k1_p isoSecp256k1.e1).Point,
    ∀ A, Spec.IsoImage isoSecp256k1 A (φ A) :=
  RLink.hom_of_check (rs := isoSecp256k1_kernel) (n := 3) (ts := isoSecp256k1_table) (is := isoSecp256k1_images) isoSecp256k1_ok secp256k1_valid.complete
    (by decide +kernel) (by decide +kernel) (by decide +kernel) (by decide +kernel) (by decide +kernel) (by decide +kernel)
    isoSecp256k1_grid (by decide +kernel) (by decide +kernel) (by decide +kernel)

end Redox.Inst

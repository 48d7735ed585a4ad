/-!
# Certificate: the slopes met when computing `(r - 1) · (1, 2)` on `y² = x³ + 3` by doubling and adding

Generated by tools/g1_order.py, checked in `Proofs/G1Order`. `(false, s)`: double, tangent of slope `s`; `(true, s)`: add `(1, 2)`, secant of slope `s`.
-/

namespace Zkenc

/-- The steps. -/
def g1Steps : List (Bool × Nat) :=
  [(false, 16416182153879456416684804308942956316522233367973367747016778420983919656438),
   (true, 13329378671953404782778259908970776496321471538098033640740119230713439037279),
   (false, 6597588128837311533837462132024146759936159999671213887650727707654607578784),
   (false, 5245267500582376167353803737789836095861322058499971942886663563000946844758),
   (false, 5879201177478347122929891206274165417338267261760786705557214597734793160492),
   (false, 15532135662791483995581206803000737843263331774043544625713533272353484962534),
   (false, 16783612991799254318290240547449138885713321842618152506899151902770388435464),
   (false, 10585982087361365665179903719068402836287454505236395454691107137799355138853),
   (true, 6122902439937471857469635257008290874336646441618763539993075488756198252407),
   (false, 7877411031509354011235717294993588072015759551819426751287040667084961938313),
   (true, 3254292480209813955772177122053631923512750362314461442312292477451154025919),
   (false, 11175480599552885388987569486846777833683866575119363644608197695744165800116),
   (false, 14532191529473249587978486881075729615500639916682183971952980658425473701886),
   (false, 11889078842864335570474059454335124921521657116543000809644181517433972368318),
   (true, 11350806394420824280608183399082003579316433378239478479284080470428013052127),
   (false, 10218523124418609391971349613078381736874382785875822051215435539216587154579),
   (false, 17762234373743338878973467125376757028471427569620399566986291627144849317908),
   (false, 5392016203140697403965862279901330099046228741180244063477098925741613700481),
   (false, 21609726539514312928070072723765789278954138986199895045333941859662536446581),
   (true, 17262054410148928735749635638767290983339429916610905187639928413548009428926),
   (false, 1963245188527578911782638517789734218517440566796317893366508674230689011577),
   (false, 9796741706054919686430599913263384974007098202464773800989354580841079375336),
   (false, 21616903819836703863572768082389227261811667914179941507355036296991426637489),
   (true, 1666402306586648129188096617429647597532585664209754246936355546669200753479),
   (false, 6037156452222399919672190533140571394942486422289694089054703378438856245319),
   (true, 16403620550148011310037153065892413316974007023296645035275673285914574054570),
   (false, 13178160034809707243455545015940589862437069875377938820982985627571414587038),
   (true, 14834613038743979442485865267941818390588240362172279776758617191199364339922),
   (false, 19642367610419362794953267530471724228609853767631750373786296920440417470178),
   (false, 17244519343980520758307216556162358513521976297033613136247916569868983968375),
   (false, 12921034639021757357122310329750952556805830751461501708943688792643322762797),
   (true, 1259680963783417631461352294673597726630489615289800612067635723536842532233),
   (false, 5552111735888495408653695280664904901545592186330581887738251403519700846340),
   (true, 9801671403486074231079480089749150023565901985812325412476926087890547307135),
   (false, 14340070110811220590570092542816656970733070936330137399352133602785728424328),
   (true, 2174195746816870995608508198692636410055215715664712017394796239250453787091),
   (false, 4933046047511817773209664719665333182176005887655678752645375991168609895864),
   (false, 21348578900347121108080997268747459929237668687173188786455199692802447716654),
   (false, 17979698958941869194686493734250690648457542682603803404772317262398688083823),
   (true, 11442332554413839541410147296629492966559890372797174087978747924449800578692),
   (false, 9140770666030333946485182857198312093938378495196021636960371023028752462916),
   (false, 21094722060860124686052576905952137073193910976250494386904010780691876414971),
   (true, 513890835056006187159623094509211436789696904019660698474214657161664769007),
   (false, 15855718342007699177407884371429526519710781389716461941523198491872062750202),
   (true, 15801590424751332272050450179563625049708075772519238062922952542316856840525),
   (false, 11069274655541516776166789000843978339346431523720141976890103539148930511045),
   (true, 1202595949816955389868339998422792866862705586159199638344341639365289788065),
   (false, 10734566437152722438317025364412083276255810347791617386024591707884857398999),
   (false, 13502841995099710763928197044083938954017140112124914573881270867905379724807),
   (false, 9164209687965429305295220502526090163383868034076336601696172319803968917874),
   (false, 9518044715308949238192692850110284962300196341989218860319655255742341036845),
   (false, 17600579622431439732483339225117603122693989033565090856362928519592924515629),
   (true, 3103582625789064850171501199605542671041677644148983283924013651271893565662),
   (false, 13977705172816641725103072241610159125515384195482866660699885398291608186905),
   (false, 3055346327404977123742697124670828284043364246481464960132020973344110082759),
   (false, 20281612429174993114812910301522656187830298336415413755833261551238691615650),
   (true, 12667371140814076809367127372472170074252642989778604741145878018020825116339),
   (false, 1021365368912433664877091725159941721106430492046911230380819235855382072413),
   (true, 21081782660509311274264165949664486599242000991116049467426698814372163785842),
   (false, 4013280052840822108388906415975664132241302007184754626411901393639773667322),
   (false, 18877747717902193032810217797351387542287090595408735863381536916769902251355),
   (false, 17168758213632421903674653491071065580599340980221703869819044869265203097158),
   (false, 20923407571987585133862250964177649347211817041438014114358075167356029079154),
   (true, 18929187596267574411336131043701851191675554096015121662798943360461552006916),
   (false, 587886445688414894911271863700980428940211450371349287628489344481629247714),
   (true, 16618992567488756091153711822635359236645784565539288645766076514715194024924),
   (false, 14184504842121902300056681488619413077841878028790140934543877106791987693284),
   (false, 1159586298119164711993740751768194749944562701098568250720140428855284512632),
   (true, 10718632221302724170691749754028171965647611807664861372502631862492521406748),
   (false, 13455765690771916350019720856310876932126134702033166184247194136644153967629),
   (false, 3535273722270009563129260751130632528772951218156302227743027265426400840840),
   (false, 20335747944303093449394439970875247257041489993833237756970569797603494901629),
   (false, 12621937206785184747432503677593415215415139749736567148566952002471027888370),
   (false, 19256950760586884402772805480212057235362542557861743691106316050431727457650),
   (false, 8240436960223177945917111158683793393699952873272034117078909203061936739032),
   (false, 9898556732277886347930171609408538709726318929975272089637722288247776464033),
   (false, 9699823188754706428390654615614434733540850682827903724365700754263773476753),
   (true, 14518155753498000898952420750485604552385706581985950089385240804580737921497),
   (false, 14303774807405225205435663282392029387301021649618718442602334372502704376159),
   (false, 9527723557746880758723735338782188858151243568679546881903231261587677777201),
   (true, 1817693392950902590941711838432166998029273101294302755822486405717580123217),
   (false, 10642786066452778050953928500105566333987744547311015169680658978963351637873),
   (false, 2174257695259565893384218987521165768195640475970829226990484875319172406132),
   (false, 20599041951466750031439379550707519936877215972320308981017040410849065538689),
   (true, 9922074055667812073395938365232518727608174194776485717921367736335143923002),
   (false, 12341884314877245244176553826247727832526401563663970628155747134196510436129),
   (true, 18569574017090237990124756326775860063988897226671231227373412474016577837048),
   (false, 1865504035259318403437949426836744715815135847630029184065939113386677096145),
   (false, 314544640930824261517243892777783940005030100602248038450321645848529010065),
   (true, 15478772018739692109704709640214860751762278696873918486461769515284633942449),
   (false, 13259690029130609371563799923043480234983736212734203227626357903227307309973),
   (true, 6792191660636670597516023335512579417133636099851336398834071986317822922275),
   (false, 6702032963370721456259171704270591253105587375058107143364509537570957809720),
   (true, 11803470395305010704978354375298717074424356823500110095043935230202407621969),
   (false, 5146922133572335472120562484413055231850708868810715034857930940088808860965),
   (false, 13616687142537917226025259527706857900749027148525567266953310403041218471018),
   (false, 13709889499321570936629500826886315648600117752958646342946151110824058827399),
   (false, 267846985908885843155908401674644422346017807094910464694032972987794462745),
   (false, 11470978575758347239033437596200786920986675967802576972403237314907909029268),
   (true, 11346491754422894200258324431524782914978776264623821312376481115811757725358),
   (false, 14091559255464784909640547353334213520674974159753335766866604913244673294529),
   (false, 19184563279571669434576131183561206653586559811549444507128533978047882581516),
   (true, 2124362283865619046792101175746161232597704946750022636610219619478867113707),
   (false, 7766187720585839947423010147680478900568137519669300763420474696813772249507),
   (false, 4420254719860650035027711946769913986622943513414698912032760084608467190081),
   (false, 5485322837364451915058347233670668961056294657835417037227862504102466236260),
   (false, 18890141350669627948620816706109075410077606048071263196260017721371071229738),
   (false, 5729657545325988099059072772273885756109301352061791257715023668476015361132),
   (false, 11649930151660213647283869937137154425540676259228674828043121138702226748292),
   (true, 5930083764378129247121670812225612380536251336631517813354387868777277235801),
   (false, 485831291581834121553438223276689322933778890795099329607673880031144539753),
   (false, 15478635426186570432263255123894478455076785983033150959992958380214180088749),
   (false, 4303028473821874644823338625246661391444682459226234891532446834819165788045),
   (false, 19726335964727099276557957606111739543594859215156704057934112665595453728709),
   (true, 13952120476412069696028866591235895907451024045643047631388569314232714201678),
   (false, 7264505221219466891950116966220871979766235744179590803592462843754840003247),
   (false, 5592595168279603563561491933910974158720059333206475258634469126058772489705),
   (true, 1253389426113512033032638000792529719821785272789699634940351793804835403393),
   (false, 12868976390690781608474106480206551204270569970938870377335505295676988813445),
   (true, 5002876392314725038864707256145118299139765805320058086008905515684131208030),
   (false, 20046758141934366174737524056408336850849954762906203283546772332761969747496),
   (false, 18219197621047049069119298466470200551529593541828293317690510583552477608915),
   (true, 7898837976794107992040981939715733459982535872529168400249534854249057230371),
   (false, 17936580665030635238946782049571640464531600201779315614740836231053607362286),
   (true, 10544463284398776040353169455113446407675880512954009342128255781970131032804),
   (false, 20574343372661263852828028007651175778712662279634405003112723552045615875140),
   (false, 20354411741989881121162055097369926713088303548971263060795118848284342939513),
   (true, 12800487839643870266092100761705109047352668066498856126340805060860503623217),
   (false, 6455896849461181878201625997511168075426857465494292471445528321745760572922),
   (true, 16319533291219180172816269190164771152418848397889562944383766893387952679212),
   (false, 8955771709322560995059786507835463224056573774421205235778324899693845672064),
   (false, 7168852382546425571332420526672883774150331210896816397160466611689603638106),
   (true, 9169140284059470565250564721654989177647557242420799184789708830907449599579),
   (false, 9831743387857279898628042966081455609540384463470940045761111745364745998349),
   (false, 985672221486581034331372490146877343335026715565289196773186606270855388714),
   (false, 5989355928629307702810161361919811409069796241975896369662326641237654076727),
   (false, 5304171422114770283493577485940737507064940775544272107559296637472652387935),
   (false, 19335478741430987178293489846056542584822814668345584494549141803494862283179),
   (false, 13748776309323378481348748306257465855465632694639861064055618368527987510285),
   (false, 12836677502903006017116338853147094636644763074753541654780383892572916599956),
   (true, 5383182958400906500514749674743332705892135399700912851648091588971652911264),
   (false, 15795016534262656194805986551869464362537534815938881981764031170804026495476),
   (true, 4335472047386331353882704339652967507499645778239547973492255467251489141281),
   (false, 4027689159150058973786671823168059007235352399363874230026733312205772013082),
   (false, 9386943742838647152935768828424645407237255688672131951811497350153447187658),
   (false, 7136079699857795556630279282984163012764251905593940175428728113651526563394),
   (false, 14841035977793885017990410292053518902810837239028980168581922058097003553368),
   (false, 3130802317667401918057853469285237394976072813415197574225793879244061482419),
   (false, 761726960094034460658167783722482694760682606778461014513694879124097476448),
   (false, 8635768345984004649498710272203270192751360151766694149292316141822848482908),
   (true, 12698889012423881724619360332757905694901911786045273591669128149843203837270),
   (false, 14219155389869568786181207062545721345751288291812423381733539747289328061324),
   (false, 9418755640258579882695446378289766051700515158377823310044308870789251462552),
   (true, 16350931292092690191461743601247771159295681020701217447598080936140409627706),
   (false, 18341932687936492397846817547862600978583226200736745602246215069293993943888),
   (false, 762023895039029982445680332729936659804337273893590761850536835512525176358),
   (true, 20728013296946518266902944795375698643097272412332459508755011028117030920596),
   (false, 4193750330998122910062993769860370596719052930915285259481403300812935817139),
   (true, 14775703384842309939469278801864456113829173832171729989283683084881099767572),
   (false, 4151169182148102104391905256177773680042066572333104419552968164933441583040),
   (false, 9378117900975884655284120769381866082169800252315664972729525419341690858155),
   (false, 19819245324851935558059773434327715372126527914950017454146743750828514334979),
   (false, 3321639525784114964560300276241987851977852404651425946714047237478474731286),
   (false, 14235468443126470790691273536694260924867452300432790046241775556161659559144),
   (true, 9641007420848035370569616136571348966212953634976036214046704391733700875463),
   (false, 8585557218657435421233464780630365265871522250803433718031349591431590721187),
   (false, 15693610692588696757641932242159772069956680880555281939758885602821273416941),
   (true, 21353913686774011298748194030792082154253746936210960414460346276453243499610),
   (false, 1652073754488790208387148840518953380669282419097960318517391522634480613940),
   (true, 12047499305728708912546065955463705641938482044513060324442294173994705448503),
   (false, 15011060910170557417889771932597099141081947921391250146838301552060765845703),
   (true, 8355319677076805878939879321381719546459479036968371274789669596277896275308),
   (false, 4641457001180236246907326547633007956580958012336091268756688287611104604689),
   (false, 8132405244804910696359012689075547676425124427514222188382144242429745465007),
   (true, 13289909480803459950062782068055788567566197009947376008346165694031942319677),
   (false, 15345414709147318779075126101359975419153844356473927174583877403373345101330),
   (false, 1974840344005304778933549425365399062948294068649988995300821556549018380386),
   (false, 17033296208984635828865397357835571554026068197015775251173289180773384293946),
   (true, 19004249619997590756401696736714673821684364415388876102255721249402463830093),
   (false, 10875032607141243449954178993182915938133349541030412171067061258676174289571),
   (false, 21004203646511178745576092165170797063021359534360076343809154623404432817439),
   (true, 7740951429953183604984624486492149443425266816410609655745493878273527248228),
   (false, 11600535180143383789012928940614426362659160868081249710831714048050269516787),
   (false, 9352246661063168329620957668286950588486224679397092601130521096942924086615),
   (false, 17881385305537900263964090582289574926008529517238994013753427245051166146060),
   (false, 21786713900692235818333169808029586207249021761822934609519733959274468765861),
   (false, 2456043121561220799696991316098027537919491284674284945321591941283678216291),
   (false, 19485259409285890316114871966989729407266303063049578388106002212021050862812),
   (true, 1763381611937845063382076444371097525359402891417296461584006051390025542337),
   (false, 1526344836953653725475445567294904245516712423758524997212713397297162651442),
   (true, 20711396657406579419794174382615334598226319875344972756911295933349516006269),
   (false, 2710844589255289392020877337122021869745898232272961739672798003699363453783),
   (false, 10653763787783630261368386456133060901744503171389269859546247459139973333025),
   (false, 5539681400146256785555868490020636282294532342454952769150627558241299230765),
   (true, 18303238082932506269813467148128597769771186266102746449273279169202317169331),
   (false, 7975897025745361121397777096804358560439230687461623105397054083803756369019),
   (true, 4100596698360487577044737566727554585099456240454057175019213410879373665705),
   (false, 9836688768261288041546421823168944666340609819257708451132072680793747660005),
   (true, 13343237875973194818084158655090870095433300911541163977042149328004407377301),
   (false, 7289029625157423319519552153138093575029440400647115511204998474556777223484),
   (true, 15344843561568546651479349765198329562729287819019168239735986182047150252364),
   (false, 10599098857541962280064022913939080059290270708121693868626216191843407550182),
   (true, 10962398032760124219343288961197033933409572509390222507876515132873403160767),
   (false, 1511552548141218671134430330989867458220058300112364284653650817645239876665),
   (false, 17484338238144003459859018383789403164619853687978314001582091265506797507136),
   (true, 15774117776731913153451822411698523317406438078519057378970424537048663225699),
   (false, 19800478366621331506991234215866534846707062566041709275923051957660222589062),
   (false, 4568409637212328309603468061675213958452276244594982537754843154430970611092),
   (false, 2725572197332900536624613834672568640396863108517421500574011397059252274934),
   (false, 2896034133492964230595973190572743763992529006991969987620870294072047437783),
   (false, 1972755312316612690991455703793028642110234657783311805275663838924947764791),
   (true, 573947972573718478269751104646754101871854344150896803970207650792220088818),
   (false, 7044541831517814502535812346195961768369582086612743213995300977897875489472),
   (false, 21808923977099088778806271303479645478334003371723911950851258757072387099402),
   (false, 18865773730098361625106153252695029035904575065086507369031400643934222696911),
   (true, 4039410789880952711823270061480763245967773154805048142278648428811880184225),
   (false, 4912815383464699572894954678498510241059283420678200989415963712628752064565),
   (false, 10170720269045229304638662129923180293802142956744456185557596391392639202624),
   (false, 6867581719812069817385454953366503177832873291966496483161072648199011462001),
   (false, 2560084277679207315617671710271545466311859623898089589092550159233158789731),
   (false, 16276613121737819391093958400597929337060632895613863171660899171521166648914),
   (true, 8532930265351821506278352187792509826509287778251267873935649306112683411250),
   (false, 6690228887575348788809629234332976925181522560404759799462580293415883874002),
   (true, 8031981420482374474695608915239443477055262343954602490088008124916760129078),
   (false, 11094797618664938490736451942967210542513256195631893800175118835100395345737),
   (true, 3768516833601832659206032844626862561125854663115911692411621331288060376604),
   (false, 8456233569145636720800624351695912765645900255449367246603768697991075483363),
   (true, 2208844317646380731136133714870953860962641356890234238483845561972095801),
   (false, 914790153481450804967983827303368712028305271250783450268603640625054121078),
   (false, 11318470600360554533558111175073345445026896447371034270175389388928766944619),
   (false, 17049418921890741541395137656378587668820892048539048757129408049475453616069),
   (true, 17039594570054923895593277763309043033901357701615840378943423252658804154665),
   (false, 20142656132834691108331235324668092087457455427540890997701997888475257811761),
   (true, 8560565226576538580204790716503014087608090565910100922347456637181281209301),
   (false, 4204527503316684736573323165645149107871759238045002341236841154445234004511),
   (false, 14852205476830670669721657492360075553274501090262078437773021724338109459710),
   (true, 6711213702434233338311072380084977529497279419307465953336770455102821504946),
   (false, 21261573302473181907141484615181607735140227058509273045398313562980418368718),
   (true, 14992401141700272266335136663788299487133387901402978025974845953685915527879),
   (false, 3381159283607840317392552614066806096816805954867293269910048822185388221154),
   (true, 1903943029810352821444817363338319062062950680692241971234529415491201561215),
   (false, 9304360875036123120310240468476010054819860272129157492297143316778598742055),
   (false, 4360129710688307043310228126820762172353233745518912314975122156614990040763),
   (false, 17663825651421018780156909904522202248734186231820107380265195431805485191464),
   (true, 8112273588454974268816613608791398002986342506931066829323116630850089691995),
   (false, 5722680075328942189040862129864161513205402388644234800313192723571597746143),
   (false, 9612160113887872156903487615631151290659903712644552432583698535942622388608),
   (true, 349995948433366098647876307792557512114967453075215380392079583756721964815),
   (false, 6290060783326880335916597652183846361056294696202616820691702896738442967754),
   (true, 6177906502836947254140336482632495972892878534096806738454706594185208067714),
   (false, 1423627380303764332908738577618743688371088029258511849506177425127722527379),
   (true, 18520506994047552168891486342651199456451791129349410536275529343773120816666),
   (false, 1982018423324080721834382708875783462382461478872854608019977841923586909126),
   (false, 11627459815313335901162862526464177140520476687467598472073110358981575978833),
   (false, 18723687133163303176801562731160797439395374020290819497904148569402469791383),
   (false, 14111748767396717102608881776682097298982313286163415711454590979669358196729),
   (false, 12014718429923868741030272832801279250623546922964690584435147375789920008451),
   (true, 10858443066113361858133399783223779782710608122468896083533749171457957871383),
   (false, 20778647248981023894439063263822394348200976661644535965125355068534868321376),
   (false, 8954155395002491876144817144063099853797749878133906012621623925839298584994),
   (false, 21305618487525623880347417804441075787199586337585731429884888962838918447553),
   (true, 13948634338385224909610854616658275307440039006734405335451032708285299075697),
   (false, 1796884352800842077622046893424077754015961167448975923070185456899573252374),
   (false, 10718405296240463988034156103462517370914948407512112940360389679119387617462),
   (false, 11790126344863174299599906703248573886447349811232353569701875727548829774912),
   (false, 18151831678725603103209294600847725045007518954735021994119454498014188646478),
   (true, 1215085593063214964162556756635428445818214736626572141130025542752214338463),
   (false, 10500388446529805492463596957631999106311407846289646744160015599881490733313),
   (false, 10847774533125885617564937259772641029914793234948154439300981552909078004851),
   (true, 10236674140017980547116970999159438804975662864756048062794065410755947707844),
   (false, 4284473218592177584003184346587774929474324012572937373282739301558464677922),
   (false, 16727868510465629157541345354647732825110004071910087025736831704176811157971),
   (false, 6214342177312975494630079234401861058444948137572057624850397877625759973062),
   (false, 11980552605834803690508444468778798189287253132565945364058355793063128392154),
   (false, 11411109868213419425386190100124562616222489822599545474709888682368029762110),
   (true, 7594515669053930422342943460592058782393657206446035795495087690050734985473),
   (false, 12354232549858406286622247543165310161781599846743847316112880922124918176235),
   (true, 19395186000957968062584950678336971773261470113969702418705413684523010890910),
   (false, 2801222403845014459389234573695627036309928267448260993384662994785929024222),
   (true, 11886018184949449507522124904103117658494674162949618184583664791526814916755),
   (false, 7764896731173111449242507029118477724783355925310395198366656836158550104350),
   (true, 16892964552770649674850304355685424132175628561414389405024093708294101539108),
   (false, 9113347362418912339788044567772344915668192514163063033065868789834408666931),
   (true, 6755491263236886556296946193347524985261063399224036500342326041526084080320),
   (false, 10373387113391688382945266926634916866065688072641192326318578201590756767266),
   (false, 583303555940623215682254596770013468937258574669531860216092004167225550748),
   (false, 18451962608758171550353396820950633314314878241905838042450276123413411287111),
   (false, 14995193497521359543385107546307144836045859208966986442664730383216787534127),
   (false, 17494012038003845408155241258106401186818603375235078973885244826132260236352),
   (true, 9421562451120437098300904009095635141558921589799170408466410226516820370437),
   (false, 5456203010956907811025511076572064379692328404156768464937207400828581355173),
   (true, 19704893930744848698493671444479672735444958366780311293737853963518416240812),
   (false, 529869724351780271917418021242106877271212457238254479778408788660634685822),
   (true, 8935647259566588436688364238438034861154486719550492226664399307766961333399),
   (false, 11021256231535464720970406164768925827544895826038566152086732407805451288229),
   (true, 6980046402211682399707556727635493137207137491457491894140930298712378458040),
   (false, 5916818956913483618983563712426053733388761113512075199009815377608514638395),
   (true, 637774820488903238340582748765350935407198030577736381964323295808823185360),
   (false, 1857590891884809336964815126356495488375533969848970479725488628507971583442),
   (false, 3778558007763755474767795138725430785192118962725591967358532807627882083617),
   (true, 19628396071802674413802438934140954758888177322975048577261736788452342230345),
   (false, 6313265227912177739970086741486464270556948622438978796402013012894379498775),
   (false, 2002859869781554852185716056275226467156868940337923421018498795118440382427),
   (true, 3673219643079237855357292371778334225513045551200898405423425824263437862479),
   (false, 19814231200513975096713037013434396989089742258516301359151242198271996399647),
   (true, 16794319792507188496107278293686557490199463907819579712720949496365135858649),
   (false, 17069108896127325063911370445079279000730810348400628776197035527245271853743),
   (false, 3965652736526848738014656001897872597566037478948551458230621055232299754622),
   (false, 20790388765554243568773617953578619210375264074262722736114053411385962211876),
   (true, 8951626617643233932681255874758285517064044303154535911719402725504194953101),
   (false, 2276262003799362408520170926056217419926875779475573249256575587620971373477),
   (false, 21723673372140896414664996029141454112378788651899332989922658157188016611073),
   (false, 15585914160597036860616137855912061853209786695634669491339736766937797889170),
   (true, 5798942213543827159318485690592400858858421011258903320223218565185824914917),
   (false, 6972524813289558982546625112351626312618313866578910444308024442460582393119),
   (true, 3929736552915671388797100870290219873090568822514703514011963926324555777690),
   (false, 20534740359860395112591989489185022908479312051091544707584308334866321319932),
   (true, 12652003488479403531481868662381487325061332892933943632001835144203135691179),
   (false, 6500037698608367375073008206686678273352076291702514720595284998120741114945),
   (true, 8902276865494783876885458421856357283966352300922792744675393534399242005158),
   (false, 10968034077402539118700522192342612242531727478574467924165749986393148742539),
   (true, 6196967888528560714789203349022035244641672264203906038180134256776738641255),
   (false, 6894026740341079370836654878962324724757211965738593351679259280906245891171),
   (true, 10573474174538209867837657002905095720491508546090656938524098342153636710441),
   (false, 17725241883359348225267599744833901475948393849069244130789923886014795045582),
   (false, 16302252907954017885134467323663762735990432175521812984945739559576907499031),
   (false, 981314919707882554877520727634943500175960878977544296182102900282709327630),
   (false, 10913132966385725363662179965764405672848493369228243839565659662340050317836),
   (false, 5620980724419344380020325148575602864616915578790016056162303530283611029853),
   (false, 6076023810445839559338895370828214108515509945792708817946701126468883813241),
   (false, 17330261070660041151585782411634050440423986730640936013629572096342879834421),
   (false, 13358372179488865794602636107490898480858812350251292006832534867571079453348),
   (false, 21608259785471648998645399488913386065227961880652669246338992194059331531260),
   (false, 20394761579181747960775825179593230340886230813576243972237755651437780971542),
   (false, 8523277203789611610892327225706742635281567968680378651545723884713129590642),
   (false, 20352336987221118056639950346750161753360157049058940126090915771890199159730),
   (false, 15561054039565013178542587073265300105973750894080366598496478098112451785949),
   (false, 3996289070530324056945544668345890499415064250187872544142402822962711216814),
   (false, 3884883153165327708976449178133560393515777228931751201776096747435090066775),
   (false, 15940113946096855789942496427625547151152296630089915898192105407430246281692),
   (false, 11254809601719929707880270170181337720556982686433066853115048567715886129434),
   (false, 4606409982790194464864240363924231916969783534015496103007638857983815388887),
   (false, 2020272267866559898472577282933538940467424543681619482755164220804209117171),
   (false, 6571984605764315754166425197611563173355055623722026263871979752659656532544),
   (false, 4133771739581960490669528321872499921305431613573401261229831922395935943863),
   (false, 11576619356540770659179971850431669379226032998167705496484193843759505569315),
   (false, 4104727559343531650602020496750632281476078204256814640249658100550596865476),
   (false, 3212169546685765749182576075447510291661810526437114026876403999543282253282),
   (false, 10720847305267594485724224903334108279996569505664076666247480783958075286871),
   (false, 11676767837869964381554866368315133149683184251892420840244323470952845600171),
   (false, 17381427849457921094646721282424828868510585226114176345885756947158452846588),
   (false, 13556994854815954402070700753698301437864739697689573116891020797492099846075)]

end Zkenc

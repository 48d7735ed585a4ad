/-!
# Certificates: the slopes met when computing multiples of two points of the twist of BN254 by doubling and adding

Generated by tools/g2_order.py, checked in `Proofs/G2Order`. `(false, s)`: double, tangent of slope `s`; `(true, s)`: add the point, secant of slope `s`.
-/

namespace Zkenc

/-- The generator of `ark_bn254::G2`: `(x, y)`, each as `(c0, c1)`. -/
def g2GenCoords : (Nat × Nat) × (Nat × Nat) := ((10857046999023057135944570762232829481370756359578518086990519993285655852781, 11559732032986387107991004021392285783925812861821192530917403151452391805634), (8495653923123431417604973247489272438418190587263600148770280649306958101930, 4082367875863433681332203403145435568316851327593401208105741076214120093531))

/-- The steps to `r - 1` times it. -/
def g2Steps : List (Bool × (Nat × Nat)) :=
  [(false, (16053038067190296367468596356094192129022731063914732179120945019446884619221, 8255536868292620944764013913115571796604549141481799957648719094616980280887)),
   (true, (2866671387143057312758457891194409217641192444825929176264257573564190519667, 3890232258320546922215479227857414964620855826958773252291666032355197288862)),
   (false, (13653021335857057497738316946631856599762099348894342724956986106610726935992, 263253999207685837260987206412553605669041817913210783746116602090146382570)),
   (false, (15260523180258139194726563426748558006756859427476543159681729357052622988171, 10363917381803769724909852020564711434732148656379605723802283262282760125772)),
   (false, (15504395576664219560946718212310369282050627303227734443127408845684874457206, 4175705247605520383500267646486586464104106372567859646904089104259420179187)),
   (false, (13585660427009738317030390963099567068493488949622964461118355855770739109844, 8735843190368659537812917438487323380032859742400022102710336918727876049733)),
   (false, (15283004960252102039284908394028759858513596464930256254628222448402527749207, 1853833859524551607633072081203332860212076995340079551132952465693027273578)),
   (false, (13525455823333450722095385428852961438369020877113880232863392918642474249221, 7046687245440716876602710348584975572222879901537609307226317206038857187414)),
   (true, (5489422355687887074292519816102736490621453135182808244356201362837106219047, 2198298659886768738277670728954787070722792467983990259475298756602307014934)),
   (false, (10806878723758004152869003165455065337011431382495947986914522516926587081091, 18232527526816315557994637329250610414842054137032853897688116494024701537452)),
   (true, (18665564730668967683440221054478997192728445780202214936940816544338164250006, 6446004657075011376075766078996458505877713031289973593103849605354424591291)),
   (false, (844347232332056228247704387563725355806246720742037494200657030356914013313, 16113603384526357840986006767214390482387003187039023001329610059640147678435)),
   (false, (7015044393505572405287412155208813152168254534714542489801172062353869189909, 5286656020880934595706289932428326911036558158802315381718469437170081625020)),
   (false, (9582610766040498220154979759141000629726181987457100852690663747330886522399, 16100615683930368660104048424783075629220981984064636206283736106517395312586)),
   (true, (17324986947842228368509104027283463547693362426243199949142169108054788394385, 15394442095863306825308134747528247117812924951409434130693958456925735576593)),
   (false, (18355280745993738091079505299526389139748361133504362123996686195981557888752, 12765628501514450686830211236060769107156498767481176099056519568469004208131)),
   (false, (12327546230109474485071182599974939607739688478169350790245025744061163250497, 20307795768359950098250513142279897517994657775767787469220126144736503191634)),
   (false, (5047849263806552611728963960370839881729323469441505455605593729769291155923, 11417776909011948877494357801684249884938284760660130686000674153232895171792)),
   (false, (17350041940122824104925112508679564838549420479708618529188818130444374361568, 8032895106288388373029620372417107391493369681591082472148523855548180021025)),
   (true, (15728929969105195120669498389362460103373707562831707477572296650753404969287, 16556114693079952494952943332042531027027963553776705040788167535445882999519)),
   (false, (4299622939274365561991519957775195713198177529826095202866187339642635280935, 3628399805940158864691647422108509778948008685165965883057001528969840289383)),
   (false, (16772763620633261322754490461817919646091679253129560425009026130374803483672, 13473646142289660540147433618164790709597555950270505825471870158535719131741)),
   (false, (16539377322896729051572433704291196881683866508102895426328066398323572349538, 9819959525879300329336921114304115980433016621367578569775867891531155549801)),
   (true, (698584197899943055701357505299851602420729411610375954685409205050248391546, 2447478757129879497273605124662545413032343896288634354299413027545731102360)),
   (false, (7005114438107140818848496458838548189226284431160659772745708882059904049971, 19370465582668603233682290471365310484302405413468690094704562658021233135070)),
   (true, (8060415749242181335403211497124770973917254465855467641962022933356484882071, 3314082957210178627887559886924748559788314571706053693560296226787035138761)),
   (false, (17328204296892867416047366676217588295870183341507621548091737797279002443054, 933167950102760167022308772681576801011005595668520865855925869985342606578)),
   (true, (4972957717218654814504693838073700171642930061971957300234978852479270418533, 18395555574689934621392816240324963560259014895373380195092439699334191602020)),
   (false, (3033162639017808389983773463912812008922404575936526739637214172426974983885, 14621868351330239600490422121976537677933119476979980351771206426404692333279)),
   (false, (9142267598205470874296704654309042799862746719595330177812686494824928476609, 18449525847386282749361963095449238057149653914633398273182199236106429137246)),
   (false, (7168398089180448450556328238232034617925108992157742088100752622817308304419, 5900564664557021523461243626207609368725348771166311658951011078459939918874)),
   (true, (4520755030779332470192411214627144453633857249358966007739798112951475302992, 18428237872167197523851673506619359498061853486798708404830894535742800520142)),
   (false, (11154706373028911960999330071303150452702509200710914611522027489847945686810, 7609305544597314127135165527267281349626684229420968602434043880147874031328)),
   (true, (10412957289977045241345430268563874419111068581803806620740106003906834595005, 20107339205172772469627610248969580716771651428203916190765698660188518520776)),
   (false, (5660042861228228000547168202282832001958621776223754603926377516337023928687, 2821256866882697013065521646810473114876004871026485956774829360454081235893)),
   (true, (7719291400066961044032628550743802968106859080925776690248185379398533016320, 7573655087837395520593357252523812836738856698035299925774353695681277936455)),
   (false, (9080941573371729777754374162129138702697393008217325141329731757949378915451, 17111250991292265221156309518921981913507460857263802407911086061602456557436)),
   (false, (9335614026607121253083346318848564164805142135554175538907197918695030474287, 9548288713022784352475934863766122252978084252440189359503473853507222574178)),
   (false, (14287825734869089745684767720127680066339933479268082056643617647143326678401, 1542288420644512704783538098026279634365744732335422542289738306560678489374)),
   (true, (10894407163247445499336487829793908775301948882790692536016335681892261578599, 20055038123161429727028448738161637083527412479590707054553235696524768291742)),
   (false, (7831758344216465492747186093347749050965581962834253376282012440749963535063, 9722120660909162913468307315990322825634206018469694683858856597478062015565)),
   (false, (12411242816656945027753786779905222555552694609680434474844303040722785963067, 7808751941928883676377340033308964340505576736138910657597531356942186257790)),
   (true, (3324298628208767273755630950521353831769512390618409208839847350551210552896, 16087434160739159752129943650919795902552090325296472842792902855375777888944)),
   (false, (14572067084619845951625712377937569156154082673193561850490911407466290026889, 14105817143560815420433743737486103477936179586899889292059166695180875753547)),
   (true, (8042748453312561031088878821431933425688439918028779370004234820312953475125, 15590384079858240197698847483837412162526148882767380885642195887002382390399)),
   (false, (7171989234412806203419760893479389464088134667463738085475485991911901546228, 9836884856300256391209219504606728874778122553868451775773691805881010500158)),
   (true, (14975955038812675423292054403046523682161795168545281702956084766123698262234, 9141096270716288032537316763093718789577404435821038230651789013333949149425)),
   (false, (15923402334217993251398514667746821376560324689168656820662272468273791670393, 14265335656664926717949939688271257360822621654316130109805753793578364954580)),
   (false, (17223865045656943253966479023710712451633260794260718269313600622356708575973, 18288431490182862813244916842012332669157536600952901941317856858352963199465)),
   (false, (5204569002486931101900469807268739282987748007684094769257157568541536155130, 29543149162961758201557812532113310049893570054723331232442209538341665032)),
   (false, (14011134005126034344629600317839801381496496765973528797750792408847908311393, 6108202604267917873404141665479367480211840964223133266605454529304367438656)),
   (false, (67252490983580443075502242968773879245412753125025995070323211551949851296, 3943889399568516607880493449625294608708501561338107814853083316052231629458)),
   (true, (3240879624634669415497647183026067161273248028809488907836539165854606812568, 1971000579304796443032186868861047394393511597867205623541095915153586810824)),
   (false, (3308539757352852606308958455671439652122296193744846827045890516397447458046, 18503966564062471547672781651677252851504315436741453085525841864258643596239)),
   (false, (273186984678264372535824499959511303422906978159977656555396631230028041290, 8493125342346407004811494430551434996009487206361777905381505883606509941928)),
   (false, (17812901545011184894076320228501257228414542487254017426130392147246667462580, 17597085061069088965822901861468849093636619281748455420928202023082692558935)),
   (true, (20785487142859766640494949722048001350955964544600375656633241264107534537851, 8983763331011315654544945167867474795485943726624925654884942403035717407065)),
   (false, (18009410380192300431667003912904609236609580450088169422624506850295485616520, 8741209871100874839922479415520335961728904635265783222420618865465417284000)),
   (true, (7391994499542505032956939949770563700196402116828736281183403479371422617952, 10663108678040788112354945859975227017949279673898592462458014624921287898971)),
   (false, (387006243777460176181773957199504684220125435298022535534833693904514321592, 4374328012115771321525752442634674292678965164841284763389070154375967080582)),
   (false, (5662704832890037545665559101461453020638181600465604259166427344307689470046, 17613825089395627921438648316670251995599163529607281522963640583670442107292)),
   (false, (2550460839951662996927403022126910653775864967095595413455084808275160809990, 7085360312347904764108921994450659291514534976403925194217919466244387268510)),
   (false, (7927935556502189105417215521928992822790884393944209164623750474102134498227, 12154612182820736972206772027897474988786836196380959631834322803117832460985)),
   (true, (630194542387733659769637850868820199217898751348253438159228498361630322134, 18798220053650578394737628380449845405207859198228194540087544476884430974505)),
   (false, (19633448598694456721392271380825699557863947051742525695181557791937069756030, 17702736553582821162598035469959547213160394083657192487437629801723141250823)),
   (true, (10218364603349832237794855547552779776235318780417659894667730900400428580803, 10099543055106544033390806780032465137462215001641816341818533746786645434892)),
   (false, (759794949083210083166702736731257796203377558805220477878774923115697147235, 11348216576796039689959039923080710830819000968891270287218981544795052105105)),
   (false, (18438434055883019860607890245436790751887021457822806178719039385652602898368, 13624007630973519037787035430675683385744953250201166831181988825047248505180)),
   (true, (7340703577468194963000551263765827618490457701106969416307256079787108770225, 13867835114035342968104666310811593102113657392001757496991687711135164423961)),
   (false, (16111559591448540765771351137096778487729449003898334343113306541210065162020, 12583381165143083824425585943481387198574697606906139044237717675809053159220)),
   (false, (15302338100637973781190289050871382986450743041993911777274580394473115385797, 11304284488193067631978527416805604996292358320209522957666550275560917845008)),
   (false, (10869464395606606253985854358589518652693390304976385379220541500416924604298, 10467219682390345336325778644800160397614852353346752259573149179438736343055)),
   (false, (3306034909272185615186714660121161997049417493731502458617971085747564857550, 4485790315311784475165208820909146911794052272915209309080782928754017674948)),
   (false, (14110312483735384107489890098762350908453537426912009404564753757395922654500, 8578419820385277071957233575628036111672380605543854605841429661720933439997)),
   (false, (12706898962447197272791759457622905483504737868666011740548674553848397657099, 2031984777127710562596521652296590331685410668251799852936379635881336995996)),
   (false, (13375492295960015488146414934149441210311115722276808691934212029353653960576, 9598117055269322557692446796231200706013313122532430900804424726159926126890)),
   (false, (15627470243842085978880974882988046383924437166486693310699534716009591128777, 2481279636513299795359691404025277557011799907168536745757661924829718324479)),
   (true, (171638486662937966705729917090134436454506904656412712468646663404227050308, 13318328436390237397688168338624259289432673647922589878984496388938997148498)),
   (false, (21788358711742119485256646697662463959440507836383138052549294633387870076388, 4885511784536938286047715670481287378786136050445458396535020008965980658589)),
   (false, (6334456961172643104450130452347666999860388986593135858967284653533775626028, 21678334552743277143243322276512119222494774431503938604799247065266096266915)),
   (true, (19494633355748718255566991785525183743726995288189731848353557590812634652567, 14501484701699509312251108049235755878686472692916903667727008036267221340069)),
   (false, (20166697892239426900141992723071773965245083387250197054714243815802551073464, 1887488068116467045103875532231132240475637970983619138746237585209812433761)),
   (false, (5695319414997772501230663352009977562305336729875304676314757490299582191644, 3370565887365206059815269435966967967911267805720836366215481665084496004461)),
   (false, (15739028214066030694586061536834611013100845880714635117325648890806190666642, 16809887854156095527281650028059803075954617162422392980214408957824473600014)),
   (true, (12212243830177247681373317599584600476691353892941537797753864421568936617361, 19015972114016466523325304509233032540126666026945366100718153218960673351866)),
   (false, (3174742655945287835226020221460188087870285436241668385866900459680365943006, 12828500531611002635547665034179351561255576718886129209292850478056367280037)),
   (true, (5624996612794919664953030207177190140273026243007988678838835242368728441438, 14000143975213107366827910032223782653556391991990557883562842739533838686876)),
   (false, (11503413317164368293934965630088808749132670335080389593021200123794339037011, 17622630987594613709857998133141459666395973376376186272592627872065438236429)),
   (false, (17048565250424923590116977193143966944478655014071172411792531067739130029691, 2985447591720790207369053591839902650890575568022358743567975450596877941468)),
   (true, (21782877045174236115496705270580133574453589903788567438441960416268288104625, 15596236691192189938612090064034034873484344584632437710621570819749037727)),
   (false, (2448226576352338198079779780314388702803709619391998298320259968167919705417, 16100927025890550174318265375509085582969570256573553412847706836369102177015)),
   (true, (19054818403532233567977989749264698463108362581175583290288954762899188026028, 17356753966722566185383805898612857973884994883302094439521830203057471492186)),
   (false, (15035458741169381699742093157112812525149943692852117794726495483108031358980, 19961307099317166619490562553261722077114067119751573325916524082961403286212)),
   (true, (1763202018243796329409449564117691748126859012373814022063698956646749153885, 2992446026117535937795342682086973212959156964675174523314494168652369308495)),
   (false, (13934119430876521504714975939616275520046090918597120121105642829798710089941, 21461150512000436086319583742897671239436942562659345330668693710576611220629)),
   (false, (16887526398096000512632507463628202874510928962781365435581835179691458876259, 10142585219723518615814104626908684978826494013936733396037924134569454909268)),
   (false, (3210809594282802135199661371755971584832730944396082566641748056561434097656, 644563119075997466837117829814723699241041306516113797083507077477421552594)),
   (false, (17644245020461369025755673303514247810152944825469151730535490929780363117109, 15311861757208912087194580791379546182603566153368042922122143805242652677716)),
   (false, (10669268900879691671171384565622651076435340003423573216059864772795835267406, 11054172209743773632508295760008967135836652888825250222596665028931277985437)),
   (true, (12540475139637170610664624857709755867376423258334342553591158995944861125451, 13566694128618440492000187358576557820794282737986413997399397458830866992817)),
   (false, (18282346564829174961976174615265937061398169910377505917259904152245159623888, 9098121631721353993254873421444589986365583405067444369999771421010782780374)),
   (false, (13644960539389223657222329223122369148726788767171985852950512685552127931066, 4420995617560204532832484381383487189084336741996575636425940445377947667525)),
   (true, (21809790314959955262052400286942692379499338776988455339526842104522246278083, 15678555666203972799283978713883702911745891580297112804611667797921862825850)),
   (false, (20488661127803565943887525967070482123905384796111251893784755515333901602233, 12659851331235175802467276280049268160774716473578031715437435356301321592705)),
   (false, (15415596660005948268271595861969802930774385496840756102205073042694485099237, 6986998327550876589697077019545877280675599284717932536237316330982837245650)),
   (false, (16664032478510397810347710274057634073998021664592440822574091075557157892452, 1833404345857807700248751089993879224322894283997397120331137208439334499723)),
   (false, (16578495156604159418033844405679762710945139179974644392431272017694087484662, 1898005698467252691271730724550385667850116766961935217111986564471378228308)),
   (false, (8262176943552271896429793960386627216117997116971129080428438556728012044894, 15651281457936801968825562563472337435679363245058410663262070653789628767371)),
   (false, (21401776182773305886880448842134117272081244983877151451570722801361578505515, 14860425335502521226193548168177840477405345631477673033086300584735199555201)),
   (true, (10420585325172777160025672657963779464990600744714305730600989080653299386995, 20596050580906246152601911025095774126216944733239837230902704061069149796838)),
   (false, (2614221673661308922237617442043068526051814030988113985249109628127046067429, 3117532176796436977718903599201533488625713763235701054766370262610812583066)),
   (false, (5796487340401274471153897250526424814018783881344059016670277128752261079191, 9174334448439573405529370778827771175621406084964757134771107596986612228977)),
   (false, (12504959910471104068330806801917027595252404291847923975363629169180538295916, 6564322644129336027454190826313506816819170010393739799342388688522484085737)),
   (false, (11724546721821196457846028049500074879559020518308557734593072514006620432368, 6773884717534697302488333141042945791250829870941636200669437206394618618908)),
   (true, (3236787889206464728233295089954684673581157400367219813717754333789886419938, 14636125290412483353410005908551202790269626061534002099028142543502019706650)),
   (false, (10340946071115213733480827672172901971446852023610455366661340873314243130952, 8322379564908323735387093926247944007451645936884921080777085821977891387200)),
   (false, (8470780040101720707777769158706719178819734691368111237749013613052804399795, 19301963574196393452700347027196459841865979406742380833094697448196702949508)),
   (true, (15089646885497471644641931721039085753355928017581153227829941457080952166382, 20773685238622512720453083790487206752883982260745140646991664671905930801783)),
   (false, (8805009462387869288573963110547548383308542321213215560632765756360210660862, 8831013672261685311279893147753128024705582198778212798014139587870208744206)),
   (true, (6232606463524331823124879244032945159860641669567714443757929075081552002748, 9716872822322354363837681638095579610566948057308600423165556059107242468933)),
   (false, (15969840481205818509604757247033419322328853276032332637857968115564622702913, 19738656654349133753609556475572250787466319780850108735435706341292199037658)),
   (false, (10165413616655558968319361251109774345062920734965252767527097697922281708600, 1638318540347823870227768551866096333900968282752471090282648622713603141373)),
   (true, (6635670408908855652243761042364363477289602125560212095651793349111782192622, 14453570191411744750213942303862577091755549319882923679411010461935766546701)),
   (false, (2230632572991403124863249721777049314467029187761277011648537265417293715828, 14970945295686385827008046923571765857123882884919014708519116904291526599468)),
   (true, (8435185094159592797883833799162094134280746846668561652647174567917732023585, 10623638691745909581837688204726132962088677218222886184282543130163795452247)),
   (false, (18554408153432761926592051632080167222543924021622036743918753116090561727376, 17831969295962434624408526348600617308120488914802260804805084553243717578016)),
   (false, (718896281822692612357323026578888728521052980860436702849105925682130138943, 19198536853139310013039745987547790422895766156082831177491428766843858168684)),
   (true, (16087071924565903642678450652610753583320461856430620783562104997869475120769, 9278071855282954696591192525346628965751718807115047345979850102483271163284)),
   (false, (1955250930785335709232159355399246595929760115558366364204587941024875408284, 1208652243799066776176448127601852311085311110414630239401330961805014010989)),
   (true, (4287670440952521036353779731814239279135344862791570540867432973217751654702, 2310852924739027976425982271123051966624665394279895506981676819421222077743)),
   (false, (965426324470509691246570328385319791845220657440912406322412027145959021769, 7998729563748230628967875727003814859746017991495677649034548958297673073299)),
   (false, (20483457298688695168241854096528580235091130041376296922702973432743039021317, 8818384342405014646237242778456000066859673178396074692602693200790033675012)),
   (true, (2249246026815314642279652695485881566741201163918361986970816726672040150864, 13835888874076541578777326963691804719893767969595177476814678218683533865945)),
   (false, (13778064801784852668595558303006327432347963526620540778854933926469764418349, 9513310668380520444633276638385820957182195755177027330931928753079212324980)),
   (false, (10400536643400129415467130844729329085949464344271893908729685244863920187732, 880721390365704125899094286834204453913063629164611066829688811109644137426)),
   (false, (4230393353812460029610423551711749826282761415900275980340184352187841895719, 5839563739983912171448200902436925528803073366183536875324255563727135283485)),
   (false, (12199761652280484870640309023505663798323130881068330888826059140780211584446, 16553042119652686624692380915702261079678562447719558574564208750327925531857)),
   (false, (3278508886305873443024606386848081112633694231942859439952260428956331006999, 20765255638737878974765694026618618545980816062407548331458145080960999741449)),
   (false, (6275051137584762440617148895224772988919822295546931809571438542910657005857, 12456320473399413421067073348622092018927604677225279004939152559918126466642)),
   (false, (9097091029817709356702890440237367237454553873092603325619067126062760354987, 15359837178793940384315069402319605620059999148675223123113504134476173339277)),
   (true, (8802984829191071716852524496741088642935991037984968744306892243300717501473, 21044977169317190234399621853383191508627225814017890496753820107576436292231)),
   (false, (16928774427609614722062508141630137871306759944949485109499755105375129632430, 19901378479488315471523456244675761562143412052425184417544682598962372686279)),
   (true, (13180589312162956946422585801090129455368758467184747561302444218905594272433, 4252996667707753862696320987393287064468184781332261298566995935353509151701)),
   (false, (1764557873285100314094387938348786564269305667024299527828630148642000058716, 13580583136330884214254331081542937803772368961377168461550395891688218339786)),
   (false, (1291176048768927646212933510187051066117724151244408255562650301919053655512, 18699047133883394059729268089334199737949879007358915526810875644417690887055)),
   (false, (17727580090047055847138483306460532188472289751159674996897607012043155978816, 14852289462832880706265576401508309961029725545613272434586994745202629796851)),
   (false, (12936891313875958528229495248233820221458041873824639940039595404404007028975, 8796462861298281273069984351988621012166726767108534657862515759948751525073)),
   (false, (269943807665310822100077820453044503303540452181575466658653835303242711715, 21369975277220864391749948855642689275417926088741987943481970550634838664693)),
   (false, (20346190777120024215604114128293842043650079989172699147944057624919310437525, 5603615123451439354994034397645924143986977353487968955059593566437203068837)),
   (false, (12397708612314800645603533350604197606499242956767927352372441903909472734666, 13173752450607725741082876890238970980715785077723294620078962039303679037354)),
   (true, (19462677868925016743025472679908503750172032717110194141004274906587893251519, 7409284172476316271495987994615948407876533521946778441239683483927055233805)),
   (false, (5714371315184020088859683812604269558964277663212295774755647762792686483291, 340065956828356271041100011743012807775492041391885643973705328167694620191)),
   (false, (19250123655803781911835910096378058106833048556597393480080330928289864338206, 7696123146486764324430788400942822077304542289646810090804489395084212855376)),
   (true, (7073054481935209652231303414448247804039686502946153451668117698831699987155, 8996027507694363121213785198651722702898255857867861321344157406975740942029)),
   (false, (4103828755261925657791124791522357268728049828763606911332402242680964891563, 7276540472443242367940345242913047505264281708919019161218494191191314408372)),
   (false, (8783302801416514568676673721066984255891753033865831728568764147205609305500, 11322317914425117808857947490056143043896686385689820713958092487298363788656)),
   (true, (2993340751361964591766220884915376463659595509459604241419406230608499104090, 1621488408334848520918668854856439614291380206070625204450260806737715384679)),
   (false, (11217626626115277648839592736734549998877154196645154918904206794957624877407, 14703843480500491049361491027379771332252071059127289666743448389893803795594)),
   (true, (3696748606868880467338769873520424459078213882005095479479182154931826455507, 12787633317257218291585712060703996264186232888167365654276730432964518141374)),
   (false, (15065136671195466404362385788588144273582055024132916986839356621480815477441, 11616995432316993669326060825736477944456448935775902852618582367473279366876)),
   (false, (1277083624171708478609139886335909189781217191124129552871047871699649095721, 12999837498012265149483936600842700170819633887247740720971349878029988945354)),
   (false, (18829935339090837339191640343018024415482014985284019486212345315529990973657, 11279723801522102880368377745227910086328986148212101601179411618778995876162)),
   (false, (8004521324428906913747642024353869028181122185310479397267593395305915353432, 2174123480406867259609205170071229446380199936472863118385193436887214956239)),
   (false, (17344970528299301997254341299041775144783465399146314419600524846135499803894, 5110934831234878794792459120559322092090226793457069045069653969386042231174)),
   (true, (16599742498287128302337873152916661602580370675861627682981434803829297901338, 6264163701942179463293124201988095079737344421311257849472761999061078160246)),
   (false, (13418465375442932091282456397952448804347688258619624067326952267705372710277, 13928003515397887374700831834852855823057835983894877515508461216266521822288)),
   (false, (11926610628757343791953956087332710788577871246848192017836716773560299457940, 7943706956898163983125414558032400712853992892863945687143744071411459586627)),
   (true, (3270555039447016285131646407138530311947643251684839637688967006468038557528, 19260414210065989729492837159418576757625846253686687372350443621230816604129)),
   (false, (6850639638273914321711799759452480472442362254943890059970949250998740330185, 5613965538628530290189036750434201841243772324793222519605524785654902450481)),
   (true, (18573605866289939476702119596654448099212001741390019795061121862141124167852, 9395051258980697715829321138704294819623573017797811429150897990808708557996)),
   (false, (14514519638249367515270555265895045885403014102522085901574737587916659056243, 9523625148856924948266135147916848281092263208021348376862306421316173297172)),
   (true, (7235085302449906240505970890302590254066244987625263165399863514987685592289, 21075906596843612058599991597982165819078615882798642305235128989655249079085)),
   (false, (7211046272679466220607731582430455522281586076313971174747357679545589140407, 20845778020715303588498288572511565321796794304400511886867805144154636931381)),
   (false, (7304543774982552586690582533987851818078483632476568356319665704903612615367, 8733624462319438876555586215258698640715418222128861716406219015210463771751)),
   (true, (17592552434880762689364602504494626494883435153664468597743004109945644065457, 9509207836471583353443566186101104625318152961266762333887569852322906407919)),
   (false, (19683736176986384473607732578035224196923989464108917382802615350362988163105, 17493542401452917653413082449464643719629931699504972655373776692129694021638)),
   (false, (10568352692117674435585055164079899475440687470327251569125027126706975101657, 11602676755922060935470813637905016513596337968565715736291593153691798077109)),
   (false, (14379606215113972041354864734032605236299657251636521967681225637741020522357, 995910350886042388798528035764383207594131482641193856685887396118612240371)),
   (true, (6068515092128718314193749748100105003898959131722863433580917925956456604143, 15809277349832969071807523552594216086503715132460961047851684391490048949749)),
   (false, (19683816863721296610129869776332362827522393495419696347559932932053608913262, 7231080866464040159360530969057455817429973152542102405175420318706503666781)),
   (false, (957800034671633917390723085589218488242708107721197198808715095672939797642, 10731274958962847685607241566659776301547025102193131112845106601233466490868)),
   (true, (4420250026530272820589612766456874942066793887073407228001046680284996705178, 7493545115220708658766846250266196515439842037065108020895628767415259924791)),
   (false, (13139543716824649830086613587530172884260226076054833058958970103019793372990, 9055931266943859153206887503760145440351375334088868519848439834866129721639)),
   (false, (15921387357847198765027805297708146815691954270341346346555323451558390923965, 14727332099770584286267359387951151141357941026910682387918969214403207489211)),
   (false, (9375299343494702127408205584190868778903429932824776306887552805778155484118, 21239144353915252633290361177112611620437229993386954750738583722829315386767)),
   (false, (13066309832836660597982558192732825957950857232073487726503594031324941609842, 3804570632679472575491152234527841063392898952729912454550984390361311377282)),
   (false, (330797659097153639194319281083276713658854962617124787758261715479222473782, 17681556410142743185883649046266614420711663249915605710947925567189717682010)),
   (false, (17369596906780333363380981176474455636297312484626647458196177865053133584371, 11379528747606028040235774080326839970165865828335264891905306392923706712457)),
   (true, (14955140462323403539368194071732044121471532582470039683511132843539971020206, 19314514052871522354341731339328457030012664402048898532031271134722055896639)),
   (false, (20839203769333066552860974815833659075453303742184596799864456173420108313760, 8854837715420175534369769682419729942859073080292285220780322749369036696740)),
   (true, (6741775004321323162713062940842903262995686871503155024180941122799020856119, 6399030829286439530129154357838436345723582933758500511560805627169161839097)),
   (false, (11991668670849022710717082942526094517547719627324655389524963594039916091174, 311919325845994469766999837293004921381039963213571142094050133169293558373)),
   (false, (11299539315070594552539802763079116441916479772862645383158522424270121948919, 16367187399904941642469207325932379466012843113430155069866072115119581663601)),
   (false, (19446453626865040288877187005999596484990822204283864283955266064928694545974, 8519818287338558835712772130980168887219272634237615478431212061679029086517)),
   (true, (10645741218804602599830153285042004000571079970815595140624606123860088781987, 5022714926050394343426211966005202705984092235332295009537677564262707439788)),
   (false, (10546341303963671258911403223774779918336796247729805148207679268605621899980, 7941519257418938996787363826695004105093583851994160430679044306003233225130)),
   (true, (13881560393541282362088233446132222339023291274635928113001686662046894799973, 9007913324710478418468856336845689144613808161257162593775116615456964588358)),
   (false, (1570292662651690067660921569298005217433076211232895679246782506834304984037, 16327597051441090371439128600358441445071528009740814817718744630902138991439)),
   (true, (13706818202324278353041858686921554999303116683691988984927932442655818372737, 2180372823124261214387500035460660216855432766888425383030159602945475028140)),
   (false, (6115231077122160466740595062538503355708979056949904456339617945540149798328, 14727528452999470353400148910419928660663645537928855129783160928514231424959)),
   (true, (13073259101548228239634051304930619537981198796737399384405325049303757263824, 6845628194648582944212147181581754229993464308535375978724368074719382865688)),
   (false, (684261308403894716362384690068851854647237317812852620926746638133282568007, 10444053955701393245178890594771341616290129836598431184188208339942198164020)),
   (true, (9712172460144694682086732280931793737206234056419428215846484539159929422110, 11855544135391470719179981044684851861928402871267224120204784120556290963953)),
   (false, (15361702202524577947708122777364406417483872534823493275867368622174770450006, 7509123965130454307199080389913933817238933873850373900762003717766258484640)),
   (false, (16805624452774594872557565822705340117300870596187975876917775060902082053631, 1767870611102029068719758000237871703208754855854504624032033023358524696315)),
   (true, (8615765427117546971311572348220954259140573933858155180086115800034842823480, 8292434017132823064601572152127831533480128835948433922721277269297689355787)),
   (false, (3629672430879109001424480356849006871168981289184130840052051927895005150273, 5086835754993263890255219796254716746531640143789506796994715042429957914918)),
   (false, (15788560180846493987494798304179057467193645747369919405494469761547122714534, 10515217621144405440328353370186487122121805254035435633228920776949198177491)),
   (false, (7725197498632909810246794603598902279883153207874178737337509747823235873714, 5364875840358492957210147479494231090083933929385298543171461623875596028795)),
   (false, (13044906137967136050064378967345118075808839442347209931364466366142220063674, 5387362862132056471311620382733916076015239846310731433261474065201526849257)),
   (false, (20485848667853449272002604617450584765519890028986663596744676555726753201921, 4366825518607606535424735807907412862527706923665935364166204203629089363859)),
   (true, (6147012153843962160409130318464390954738493272492573374163827847412064130062, 10237572672558351581845118445767822575448644882411758628540426419519902067405)),
   (false, (4942004286630898341030807948080324339248879171596755648363952122542832237434, 11506103413407444941545255952321100666137417523382212054876485227798263693048)),
   (false, (683687762667425543970432779045090552478536886851734539854930390430568835607, 2919353490046423016502535918446969378990956159512781916556171601358766830906)),
   (false, (20658006050883695776176385881489612091957519396558795067818166824073473807181, 4696774775213758207335333746334881831151393670377863495273583965881568233153)),
   (true, (15240865528287933533904970435529594001046407098313787688348486819776024291841, 18342038618216594073223699796506489795938972713717820000794098080101057072695)),
   (false, (16480864145741086382522107289530980677811227490147447580798862563558936093969, 14644369793241895736008582482795494794543646946530172532413348565398205081518)),
   (false, (6864948384239004935386595506572298606216254760658095025336582565809535872396, 5138285741338779838547517301300214638897013180814375051463800701481952826896)),
   (false, (11653229637873825428832628385072434313200023638968232666890853015734822836699, 10341047259892668002752238651021484475965420298423030423140092513414479755887)),
   (false, (3689657417258268276534778986927155189352621367547842684343340787124362580213, 17247490112732559293029051174994614651956355097388150743092189066182510739468)),
   (false, (19590840553425714703531462515095686899657704150032263160551655486302051577033, 21403973137903242702660617527570436173018661342298468400777263268207192239834)),
   (true, (14786495416755313550542825297190531912774928646642399974336488497604352592823, 2008185681748370241648710323001263627353909096134044797056121197931958279037)),
   (false, (11182308223478199665556013876751584773500073383838676835095895606682493659183, 17879147335071323489921051545287416273917798626104797817772299738084361132678)),
   (true, (10915364914414166677343315710108256569767856552946104766454998435024549312975, 20020460048879571631140440273672262162636033098979510128897730910949761750753)),
   (false, (3870556185422295693307047145551732912196388276402391048122757988694994939078, 508848558354154904389058240868379659728846227443357628024753199465625323097)),
   (true, (4550780897131325991917751146734452260985264879334612241285648145255297376823, 20743273649367641350520082672694285499181144896478337014571707509498436283228)),
   (false, (5697562294616492219502707502811140134741141582466935376731352950401608033267, 8931534310342728926195998636320246619168751208361438472535529897561533254126)),
   (true, (15677533848576111709601709713866276907697252677456501908565992429106192613132, 4546517924937126044815251903671125846743460947340385722695485306021464891505)),
   (false, (14776782776044378072333038620091634340885507585799811493902576046133583432380, 730960911383917559012831223196818052430063299851822537082626523839873637253)),
   (false, (15901083777331643680664558524386242131315189101174148461934342358188289476335, 3674426029086685829142325922118224688342981366143089869478902945234221972279)),
   (false, (2511007950961638787126894957650652003187610748352050898581799133213099686350, 15336291998505598893265722212115332692716010066468943987921629146635010638160)),
   (true, (14853001153663306572096291034017954570444281860028916710022319974465748026165, 14670208668640857005256560044647615964090162308849474783433756048843841412481)),
   (false, (17446188678830088081127016448716436641191995450745142389090110289367887392598, 8378921778246387797013685614644274719114471296055977166001353823172401870254)),
   (true, (1531696005529752347146716120990635874870944056306146038584706244392699214782, 16158651254246720659010679509904507208773643633107360008639334211253967218532)),
   (false, (5907713542609005649945995181474881243231196713915562859035476512723277680145, 10799138892463527469216815543556730992386908425483420911702019412900891454596)),
   (false, (14734192794053765803465483634401102957334308399640115872219573246891510091552, 21351697695957778906029913059759640732829586597392276864068344222008813639098)),
   (true, (7613417569784926688160792222778563280108544511297719199097977753087618790705, 14133135674853574138990954278477402589540855341719552472561990709545907240683)),
   (false, (21371769018113177549659726292125454822026808144378752893421324799094470671191, 20646682103298431118590800352562508989446536198957413213397987006830841557422)),
   (true, (11195563342225361084424732199273279663353411865486922931034039839854218248656, 3271526739263824907255446178270470783318370287045517439811635611783443178835)),
   (false, (21121771912113718786657646518549938206939071479977857687281067035059111024918, 4361719576656267345897976976134957182556444329137542458156302994275748129036)),
   (true, (8363163896090390982192904615923024717850377777440492838465183280433260226800, 7208323319333541189491136888489236749808479389562150486738523056811605493048)),
   (false, (7501149427830361703635916146720983717844258467858411635055893033477019418962, 8513273168617063742378455676356413485814164680147559882358830414484838757765)),
   (false, (21090224816074264639803569246630233441175483050041165743780346241091708291696, 19689396695838672610862433929294833018556149849744743328805145357285358429596)),
   (false, (17303240548972349140225402110346327558702077880593970990157981875792836820359, 1435203451403476378034460833455953525379593782187988684265859315524270128641)),
   (true, (13537133473778408188266511191021830578655025457048279054093420978950599447177, 17225044889897814196236484695311557699335957817623568847825714058291923215788)),
   (false, (8709293528527687190526535721505994830291470661323270719268593411125386080688, 2662145008127155062652608553923115850138214935733370116706956052801140420837)),
   (false, (4270620895879246470812546382761312278137871556147832284897937913627510963778, 12719051160446241285529447897213170666503789648232741594885254114098451620766)),
   (true, (8132045193124331069754853371210004469045940259329294992053413211479492943679, 15287316831949260019561876662713319610023869725199956933655398067613035290599)),
   (false, (16199262465974229622557948244447166253720289538864514038340157642090081147860, 10846579016497300083653668493786585073288543742787562025636117022668723769851)),
   (true, (1600568213653015048926086685485537979626807221157925215768193070743476033881, 365825557818240921677795495533415451639836672817455732040998421399134280077)),
   (false, (1514882612280885607752206137551496367665023436153389595602958554778872345106, 21888128495176660605442986647263319162265076368870230363153500306665254463445)),
   (true, (9935543592869432654147122433654633821381841336957303150971756754681533207136, 20611924236331063465915237948253458039439450091626565738829668527344143880847)),
   (false, (5716189710929148845729236193157235105730530432304044168122807734179595734726, 10433179111796211112232205479335624585859076314988173579478857888122556756035)),
   (false, (21293679776329961165232684213656344683420669491101870897783761879159569095332, 19853867194015610426165742540012345046143499620325016572051946087202262002975)),
   (false, (8830508538130631249781608687941503453327300589378727961886454192886952612630, 16056670648657502273737953857584111436582004236303895258871267496497439354419)),
   (false, (3211077076377526396495557952044461283948190191505406256436918493856786976197, 18386596094071596948503623049715548670251607992948907273624260528804838426394)),
   (false, (19534794228340009303685816067824040058794271491676325982962615863258475277719, 19906071954556089532957875712071877462999915037064108384000720096832004120006)),
   (true, (3696879443364292288520754904594783423100989849259880614152959741822955639752, 16313395415209565729663069545986220850099544915583432654151519346798007264156)),
   (false, (19360616959760525699892436995315170921301002164013036953963385413953637700820, 1799952585360352825361752515738358177881861473043935507512762966962439025173)),
   (false, (13142943759574595485746763891929184998667379132566637952063606787581068693435, 10559382676969718438117485457314951462714283186268102868335360758908051271704)),
   (false, (2806548682545116025155799996596081664861303685993927040863506668595701050333, 21015268782392126792192412592958914696712322919425482174861340000407201759330)),
   (true, (14148803755851670591906976427687306711365094339362712522883561723533308755431, 14634562090412754231737462909487935661532985166733401875728778180634060653093)),
   (false, (2514674592859139135010525163005377440055031171021213544671205885564864945167, 12379256119962506924724939087928112407073639266925013186089420590241132845212)),
   (false, (12543902471557535642786645250615357136166427659806256067856657039670435248302, 18613857445615306308199088420187435053983508776039302008762542558721355368410)),
   (false, (11863187893003804941538472515522022397980284776029470122462943080558665220971, 12555039309959086247832913838083084582239258774539886929996614391010322180405)),
   (false, (12211063315521650792462348561629636607289292873185875337965610884814606298363, 20162070972916822301300712376258738642046877961858235755256194837128803509198)),
   (true, (11973590421442109033476709801717936595902186890790546344609818703463301470026, 5183317138237623505053464194175941920650433464544242556554908415787096150753)),
   (false, (11727226045329770396132751415531996791551168554106841357615935872631481858473, 169025211251571179205352891129581635347288865569870541591390921729573148673)),
   (false, (17384957907542490929411306257243344438903729183358610197407442386665628795041, 15250935592534454908266167091615701653109922275717554426065112276999641774530)),
   (true, (4110867183416516025914082552602796725142401931661112442715153306330770859006, 15293683321365109667417769994970312943583702098208300356393035097348110515976)),
   (false, (1226965898506537341973454028727420246403334886196496827453907486972719226069, 16438147854367230640853540916196273109839710905481979628573631806892681398925)),
   (false, (17858743765241048737781786773158843044636928315920149206202217058597834208352, 3552940125337312865009801263667496996250886391337491676358744592917231339366)),
   (false, (10987841696681278950651962808778045082345860264991264395861863647580352045679, 15693694333770737137975166653378154272111805176615668853714297990438875277875)),
   (false, (18846929187150423881796898944369065677868948576530857450499110210407874362647, 8022948324691664207572372223595528386972886774857182161363877711860332347494)),
   (false, (20501549323016549689180255613630099043335235043632205482902964492708252446771, 3335703679327315830979529146487476199852408169972336404451997258989770006214)),
   (true, (13538733431337577999584812281006894664911685225377922517616842858346282614503, 7158632592712179672667437257270347035544606785858444361824606813618067896321)),
   (false, (15331275375758540437663056264015349614930350626273496438807659756675687662515, 17514737164934642067089089433103341578750371817652858019118137902386458681560)),
   (true, (339026153476920282752969055558300622552685335780029398563962959648124317972, 14901083229239606352410518032762909267593001579343908913871427989303744547307)),
   (false, (11173317017740397476813142989710450134009550361878814633650230138482954714750, 17635805971387895825719748806418486298832623209560917391666676490782020441722)),
   (true, (13629638220233071415942886974095387440880570606848862655396385028431844374700, 21275862699944523003496217714854699269903071460107843157882563005362625651999)),
   (false, (17606221583659145899571397111151320458402875109803735658292079450078198861967, 21585282422577825087765202122154364180073881316612206197716728193166419617655)),
   (true, (12324715024928768895954409160735721504830553211935184180250264150057746384304, 9480263064068176727193313682574056410334716737105292713938663171786773164921)),
   (false, (7895851239265986825948084912833965008290935969950790390196136472940099285767, 8850817617950354805818848583054079727665904773828016575445560826618459195869)),
   (true, (20991445508320108046455045668300096044165983323948250644010680809824319867508, 5422951974615858626129429393850632507598786924753333663732773176478883968095)),
   (false, (3499380585508299891159459780992382220684231117178758759880641668524103702139, 17343481667352048931488651599484178626250597876560592530722426455666788631802)),
   (false, (14061061532888336018624011224215102461575832492866718704037161390566829256878, 13416522973783182331416547427074081937727139818067536196369782930475070349463)),
   (false, (4236311649223922264627944391564591931046965430021750441828402356505689682859, 14484807593801053054752654423097699537120041775808343515912913269031291900019)),
   (false, (4803622944237246125165492511656068330449808078828109188634687041035564655930, 20513402525653348448679477292030976464351183787049924963937892003647413598876)),
   (false, (4862249878322884849395639052750165705409543635933607280775734319113710979770, 13220306283452721744923466355424947516502628637368160727827928759470388274429)),
   (true, (21257385470975246087048702388374974335803803704137599474977508310967540256302, 19619307535996476436947065587161964989526347557783321759611978757326237660625)),
   (false, (17295593068679798886162582040987515500689476422369866077838953206738903457764, 7083935014716205003176968618088643861224560173398380191752457025186568784001)),
   (true, (11782043210314595672637545859439015938752760897882785851731234997716267550863, 2384221513438494661691319887350168915933263211866542618394258189418724131306)),
   (false, (20602176077763224359970648974114803390381696074870401068930623205648695943440, 9821450020998224659894811727265154106118215223051646904427374873551031643063)),
   (true, (12740199612498654660677503430192873031461291956175675412934920255572273138815, 12488618472864600727977262935343153146499010802734925132721625124757510200624)),
   (false, (3507395906636921374241710584259338636148713871395579964375424180402849889220, 15454215064922806356973026089070835881682572398265592308216859927956175645499)),
   (true, (11177731847243011462122686828606003561937590855505591033795974553523454867305, 3693623839298244913885469714698404665539912329305212341256491213848627717989)),
   (false, (4118126581672287182328225884472435162021007587709406872559684361810438093830, 9123543171122293794363886309756141787090707712350291314212767946397068136604)),
   (true, (13848616353011018261606187289974038414630150816899804259354126345405788740755, 8540855156609571750659730853202057916539046792270223878120249105421273363259)),
   (false, (1410072376612824876872670773127214392598183200228155779893541691030504696226, 19053238045133072201736773927848794372913275280420337874070641912821667311007)),
   (false, (7216854132077881611965059446274376247502491912260956078567246565098030246347, 10412403501984758916368608794653216977009267735922106994698959598560121113578)),
   (true, (19911908810081874378583643982952019205579719782101635319690556985840454290926, 17753501020710003707004184641761936522947389543201533122386212453300339226830)),
   (false, (17530870146920202679260654822136878714891998882722821481238081375207469804900, 5379588914335899613907212798165244839658206954174562610682750657644332954888)),
   (false, (8173053911772730356262596077835899218920090165288845483724846239195971100673, 19775322363106700276160735610931762674583181125642120090758451091003209380501)),
   (true, (12722402216738430272954571000386664164547218415345697941100994752488058156132, 18966375668214285165209530738266337134267510201344315546538535557287095537067)),
   (false, (5656369357569847791979913599178646917622061126838651592035826902177030076897, 5316383955311871255710699892632278595764478956626648288795782771982453586893)),
   (true, (8964793910977072708276887789214799960128774836475155648365012486390771557180, 2737336078382741290731392673185254703053507673288387894078173756386007821775)),
   (false, (2403950674757588113778880400471151031311193833972145162836585193992374859263, 2363014186646867023442777590505875326863507590519768870917356020348674746105)),
   (false, (9582202209054485744114017695515014355761889328614503812137200395872054782557, 2245141950432958420166171708892936099640191320106416762984646629276819273035)),
   (false, (9573229580241752381873180286593625404660827163433949310628604565530474753127, 14176775832870532895414305588131143516026879493319796225304204334481826037360)),
   (true, (5704791686531409002818154619086433891163883691964272620062045033170918016858, 12260821497926406290079057782084846953845214106040240688929971627414122906686)),
   (false, (14596382789758584605197474886315842432481705946564710199784123223558096281354, 5148834435868272868686843938254061596842685325244740013357073992010976704647)),
   (false, (17684846657422396219295273432264018527736912143876588442711530886580290177332, 14262925541965862470230129943612353350253067337415977008962655534485042925439)),
   (false, (18657072431491088604023236937440227826433477897650087280269700690944065510933, 3352435073861227461603487675692377634829518119986096625693041042473483406183)),
   (true, (10154237520110082187843019285666587440637033916763383976440885041968406265198, 21231584674015276823786550944062103282981669383574958585564638612432703484877)),
   (false, (6837812714354385810009935617109093940598100247976364128874449007290459240560, 16801194142296972667887374456155434119342215915408443714015635505371991454288)),
   (true, (17149139224485024383865045830374395841916303068487365789885849543620472824715, 14612475500637855965329346600808214087440402013162015292134458097733703503721)),
   (false, (11580151421029485283767730347289579585886358167656497026754648856252429680961, 9724887678076776627340631723554529533551972698571781232247392571793691418986)),
   (true, (4151994684442597852270754890936215248632373461336132829797229935508883837501, 11994744848920247128515377911613227357080755241941978413375589419851510272330)),
   (false, (8926558359138047364408218784425850086105836703619625009667504256426719810070, 2820422755702441678338999013507562710984367139606893372776716552682472039436)),
   (true, (206703934016711331557608431747854766705227848681186430116820218448298271472, 7878743361958554887964671514932092880780547446059947271921690165551945743880)),
   (false, (18499745579233034743612392025115366113345581488013782277972159121631973033341, 9116727153575355800368557555002511666583622741466986298893973944583088059304)),
   (true, (9748801273249903183912490384641251625590952513280647127415948396303481870032, 19324411802461339242366720024206121050211988675952057720280108637676827096394)),
   (false, (2610875778302545423884638598619537640127428637993464317506361368951568554779, 7041270478119154927466370336872591589799353283000846278347287355453664219715)),
   (true, (20226367203046730253566642442880705057673388767497246657737520320847749792443, 7084221271576071754301510794230641715601127431081650747858465224200186968679)),
   (false, (18814239411037061790273518124887889016941987697228259193162519111824470447112, 19816262986087846891072397426910261845228525305444860229750991048253804502083)),
   (false, (840618034269111380834572633152091245175904929111499040384537868421582715346, 7476561586607717376739402215617086457240624837839290427478144938905507929262)),
   (false, (12969945131440581868048902994776281063816279962843177529683147183433828141694, 14572621560574322090852782646304435531888269054726444202468908279380557498073)),
   (false, (18273062030792623921422875157672203255521197085699678682609655999960640409703, 9996377000552931925110010126876842869097524763608887537934541716052168495863)),
   (false, (18048135039695174969140881680982109820603152549086968369260584757139633685911, 11357448264359939817376745515494575043466869493633785130918349070752399356098)),
   (false, (15188729504374536728060415382592962591349036668064187072474162797171775675383, 3946470026947796526661527121577346618074353913999811816156936458959734031224)),
   (false, (1913188136983227510338155924879014286712693055180816946337829236120051274557, 8038921469373544300243724046406286234968396898807622237542006426622272226496)),
   (false, (20736825553499465187000087540777839050891665702884465239180084122142684557233, 11442133651652092901947747492028181484503688650205879616694353646335873504740)),
   (false, (9756903351741503992232796426587382107266071253180793089661766547506764085097, 3425106240362768616520116175908070055752918263170107084241906752302845646307)),
   (false, (3794865436067167540122094260083779487218782918537704316351271291477339766511, 3721902074476304792048247271464506992267012312347023843638956326745050264096)),
   (false, (10763955593276860475258615375208401038036189303875507085110866088391565367197, 7854970773112475638343617840818978940210040996943778624989271315935197931620)),
   (false, (907467215944806336037682466275369745129584529259776806739829567162950819616, 9006706119210905907099235468288307072421926504151476090662702125530555141951)),
   (false, (15581687084158302104486239458190036954443450667572452089045617366455765998121, 12250298124303948451456302078709436084415094328323324602191431266435835411402)),
   (false, (4210824745180362246492792700888514614834371653036116738549001536550862828092, 10189936348014153539781291061853386624966892055344671174527962584323367108817)),
   (false, (13655198977444633478682766705927045816076831305617491199719425301817332795943, 13292669781698799522337106611314557520282105907279204733623787100777933024903)),
   (false, (21087143473499741128217567243231928260462856278161024746547721574684042812266, 4499309701729264985688215709223802439589808288624360599036438100967287466238)),
   (false, (4108483495628343619221872020160300637933306508403662979482530452127665560605, 5993023326153639147624431274823954618426471866121998765540517691045219459091)),
   (false, (11741170221384031814513530999603465036748562193019042988346984665632606266860, 8368276119671549480912740991151439345029820245124013479742260799476318187452)),
   (false, (11753242711172215687198087992911823412632288801547106593454891878837124718186, 10346689499704070538594665448355202289903643952714561440779078407942439738298)),
   (false, (18980475838961135298861068270592969399322839510522333825973941574952883217257, 9775781575249305804379645927031243315054766739795180838751462751513106367617)),
   (false, (21222271259489842659469807647088186983716635774157819686093986413417496523136, 17304511578370210523877540841959107466549547667231035451589450098608080147547)),
   (false, (7846145478090266955734351595282830844124769533547543807938771369153330512196, 4060666773083404431959706771273747572622138908797968990169389482708034884660)),
   (false, (16506989749077700563491006386248715995907123487430667211053839944125438681422, 6795392170227863429655589475959807021067820356552223436486543258402878509546)),
   (false, (16258601486537156255861376905706685197966270375091272450119345649176537967560, 20618507646370925000442344606030996938078709451572568070861722125913091614157)),
   (false, (20933584479334795881413665436141088206278790578303799162768232335132805157101, 15285723772026055989269241725085048453246924848866270722596646611391331746013)),
   (false, (13150938906925994242820949951289058859189644313975293962287553890342397364845, 13531527396799547406768052562833470833218456726439860656978998626618315228199)),
   (false, (16350390199123944227973533294687504118880959724956471236260620107685273074564, 7339355104717996044386430499901916715388649022669693541812846166448768872723)),
   (false, (2209929388260442358814030002503794493759401939906343956221372763114213074693, 16910450261057946173679431224315138539101864031377655819843618526327045364337))]

/-- A point of the twist of order 10069. -/
def strayCoords : (Nat × Nat) × (Nat × Nat) := ((17104313122165765134751071573954397998910742057160586741504431865092530247148, 6803298140907275052193374279696798829244532018046680484422159498316181153049), (20929228109215085641673534002875667749781168108789068628040984026599887111329, 717535573572059415844575060885625982841398457036564749994433381333260146759))

/-- The steps to `10068` times it. -/
def straySteps : List (Bool × (Nat × Nat)) :=
  [(false, (9821464613087313031043401541452965538892409169620189207006586973530329895550, 18676887207112468322078269870553967062160705023541734418243125050504935303839)),
   (false, (1896669373261377608822297727722053352495556117392458528167776653200741937731, 18438236456822061516456235656896173866608899282660013236446053897430157088856)),
   (false, (7714281048788771536873607167440014142160109179725040028524747421299497693804, 20926626020024819570118383099177239585870495053362861202924047397886997536851)),
   (true, (19047249566399132647696780607863876036093771656653919550037399186633176060671, 8981545139759287421915224658779066795691712860824598218946859039059085210115)),
   (false, (17018670402755096033514561368772044065313285098741339851622272650776965924206, 8024096105446407656294675210935993509035001981712899625361577359390958905443)),
   (true, (195071353789991812384441683642112063090549025088410390239519759754977349116, 15139809355549166040702200810240154286267428852949325824877806161078126554279)),
   (false, (15651212601784111558196563754034966644981437232957054669320197406282253964262, 12146500587571436153504759870021435677682677636672822666614990474991300392172)),
   (true, (2204981393190445801746448188477046434668190879216240314463382703629563552350, 17757178661555827124571914930897828915155341120542576073221001030601488207400)),
   (false, (17566310568335536345404410472168552794335891545004222186518749146645164195096, 21610792918749664923997223223508089089616522195248410181296638055061015951653)),
   (false, (15148046540276008688047937215518170057135937986360490953085196436377702000643, 13960535346935264141867920255196431937129723399064785194777445380076574395938)),
   (true, (1062975636230169385206148472480790911308920034183266219583108795617954252609, 18363932972502925520759524314516754169437576311971722780300856726749519986920)),
   (false, (20782741833428936305554806330834361555797984251232970053296188037227681559659, 12120464601722484971797930138694365709575671208174751523669003800523174864522)),
   (false, (7785391629255154661822971973463607552778666018407833108102025167598175452079, 4324917965291114964346317383345851951118043113128337009272993223405381443888)),
   (true, (13715600148175594109931482917206293476805969624062248389068027148624663064668, 13427526730468513438060833748824509966834734464002668620898678654500246027241)),
   (false, (1351170796626458524515622510860192270089903055057758338829479468562042086329, 2520246081140681696188668651429086430925050298279818818430757999470364480945)),
   (false, (11914214553627494334669018954972804419185523228185854463773544979340320248267, 14210826432602638865035143595755594610608371413942456167863300037346850683392)),
   (true, (7607111129906703503526475905066788280837752924113143794457534493959757155735, 20820592740122086736694875099457872549976113603296369360478871091356153255061)),
   (false, (21538700203509075768159481948131532514765615249157374872563635757580735629180, 17223189221254903255373814737257597418355783184713324673699337967361162519939)),
   (false, (14110988639902841745718033151891166429359435254215210506340072737652801068341, 6360586867974849297019523796673726028167919698580503356822514231690490756430))]

end Zkenc

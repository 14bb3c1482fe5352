/-! Generated: the states of the Goldilocks permutation after each round, for the input `0xFF`. -/

namespace Verif.Poseidon

def vecStates : List (List Nat) :=
  [[0, 0, 0, 0, 255, 0, 0, 0, 0, 0, 0, 0, 0, 0, 0, 0, 0, 0, 0, 0, 0, 0, 0, 0],
   [9746316890384581417, 8583913887766787684, 16450449598569196182, 1854847684132716454, 13638946976200278852, 14303218638488423939, 1037961890347799793, 12250438441446671538, 3097979359935303674, 2234949983153427602, 6919189189394583517, 7188056271636072559, 10639901244806981300, 12310671916355591820, 12949970052077710066, 9131721117224471343, 12526129948876476592, 7070332574256042344, 2204217614305334970, 16126976537633198963, 3125179075590421736, 2785841190575656709, 3494390827014498007, 2337536585061823507],
   [13450758378419933328, 9338761559519525198, 3551987848526929465, 5836128576214832382, 16335188743946098211, 6163550477905504217, 15559053230411877029, 5241993141504927907, 2534508554462564943, 10451984525297967179, 8360389202297460916, 17263085329611831215, 17008706518387296686, 17843056994258154109, 2586687755932395709, 1781450833685120639, 615386863389733141, 6745618370171894164, 7700538292427058635, 11435428041516417656, 2271900007559540064, 70173001558511981, 3753838411530800891, 17660086206526918775],
   [10274459028344870361, 16798739953306584517, 10945842592101440369, 4195900006998657699, 8037539998481075556, 14885944347890801641, 5607184171519652826, 2601650611479087721, 15055543852709547105, 11684935720004198242, 16441817768091771050, 8056500394729033045, 17573209015900473369, 15556000644414216892, 6407584007650448119, 13627095922098432112, 647916692428672142, 7018150697298328496, 6722235565644435820, 9712979928858873695, 8376048765511632781, 8746933963752223842, 9905237708882931086, 14691112280676487763],
   [16380395270900337775, 9239198791113353163, 10779750075030911493, 351626442920863502, 2261277741696741922, 636583059899375148, 5715594310011244624, 14436869836828543995, 17089977506892826879, 4653517352558121290, 7736017821184230550, 16389178919299922082, 10959092364136020864, 4926169000720669536, 14538696576001704827, 6069413282089518647, 4161174222257142472, 6886007854801528802, 7832115794558837925, 17203393838323923983, 2988532672007473546, 8942385283287622880, 2417483981977944288, 5239704815061121706],
   [14093956600337095129, 9484275095757874198, 4854996763459109727, 2934775974052484383, 5870368814226575561, 6625880730300816155, 9222843265040168666, 16130233539637614849, 12516192725081168061, 7187998551506191593, 12201636943584318679, 8392842174438367776, 15059835643527998302, 11682554065353281223, 10301412904641205205, 3595310909569511058, 5784773477611345778, 8418942607094983544, 89681529647741377, 7084616598487447961, 9684436071905254971, 16216643222454682674, 15625509607675505958, 9527868542068763563],
   [10615891623942182641, 6808013917155992426, 14451588035194406624, 5529276021135798345, 18132486518215560728, 846591461935885797, 18292740133924909801, 14760761646286277830, 1385426014152119386, 10595454347420288280, 5877191674886572690, 18176152289370484654, 4942293281727345144, 11568339546778055543, 9004801993932851117, 6208044914702569716, 16118204829870486195, 5921591398200745758, 16252957245602551610, 17738969260441827782, 1167008724459891642, 14042563541260125976, 3115270890057261903, 5066608971364621269],
   [16176924627072067903, 9291933094828598869, 1693853700756986632, 9125076057308455848, 1704021407720952395, 1888063515708854343, 15420412582523631242, 14473311106856155467, 2493741149794717393, 1422034725202288952, 16576113551180676518, 13256780964158030322, 2443912590903319804, 342447069556076028, 11573858503782945210, 13620124405453707275, 16515415132316701322, 14499756241525233949, 16853367754794080006, 8940650296638224182, 12195359150348297751, 8590653869848899317, 8581080619967845178, 1342981009168074181],
   [2344363042091063883, 15961526219925639715, 8389884147547444174, 14957650230707950274, 7488101183491039848, 13577345707821661657, 14119889870045334485, 3052706050087978022, 11897396762530212357, 16014749034734558028, 12259374590995627580, 10680816019515448364, 10728437541742085812, 4725048187016341911, 10432990838903575195, 7457993673472916941, 8441377658174469717, 16971578591907150654, 18109530066539772942, 8106965475963172658, 7577273766562598641, 814503024415408373, 17473829986003562067, 13600410608825695780],
   [2109450407546719584, 14505267833694233985, 17393581771650325365, 5941102140139925629, 13233462872507214615, 3435606791423135081, 15101674744784200521, 5133030793560285928, 9601298975685647573, 3446139414032989270, 17742944989749530671, 12885456203422566839, 14321064035971780971, 5845199250051668088, 10443897641708675407, 11687268110547465400, 10065654439999832047, 18133569357184683638, 7792764935625828432, 10738984369386108559, 16574115388813939044, 6537074776113895198, 963396028192837800, 856257149213495536],
   [16313319697552990209, 5263470710236936426, 12344396367845677258, 10242333300628009743, 4387778181484861551, 2237209397139724892, 8421343178923038212, 7497438660258640895, 11212481337146439177, 3659332251993959727, 10985472489678038934, 12359794764722156825, 2580965369991078306, 7208254463911836848, 15854661709935350638, 14388290791838852997, 11240381987825028130, 4777108232701016249, 6064461743919972003, 14070177609546074864, 14994664170556309148, 7019718993206192324, 9608387317246024652, 8119256858616396082],
   [3018815599845716532, 8392986837360812525, 8793794385572451497, 14920930453874895836, 3138278953886768600, 14866992516055948282, 5951418283097953674, 10082133716903702807, 17751572257425975241, 6413734906461902921, 11232288076297140127, 11572399279238415037, 3716246041502555937, 10731918073945777685, 10317705744124301529, 3292621433951149497, 11320652786114506992, 4012369453650428458, 4490107890962553829, 6078742448538235457, 4003776400747464998, 16868063793999823521, 7767845435783296276, 11976252453788718395],
   [14716395304947249821, 8603571848350765475, 17065130033609752396, 7471955045724237923, 6049160715837960706, 5484360774221998266, 14412184379752975762, 11963381906275930953, 2853320581201512422, 17598826049217361634, 16158222263226250069, 9574598296815216086, 12446550459802269481, 1114361756513237718, 11173385581837735137, 987811332520083510, 9449023193193498400, 7342877061002698318, 11921920638282875977, 15050700262696670357, 6819344838365342831, 16408677776822268763, 17782520256145212360, 16493183688489842585],
   [12014472307986891365, 742781518975144130, 446290619306693266, 2376505154729909308, 11860244954891768976, 7104397726286773770, 72201105098350218, 5383754958229995570, 670870594654403702, 18009182941706397659, 8193299904511641903, 15274664225759665397, 8941830268161216293, 15271452066780881994, 5193569959674533796, 2696170086255750311, 6247981367199695922, 11641160185647264175, 12663815847837361228, 5122641522498179680, 2687050153175201562, 6290314481396159415, 3932310131808255126, 15667161503521518935],
   [2137079616541262396, 9739560529661732198, 11587318507773098245, 14214851893268665102, 7422844991611010836, 7770041351041062175, 8222324490383060531, 16013291088288049823, 3019589469913496943, 1982094831094373571, 15477849649849923224, 1332541877199350265, 1195549857465856263, 7212422985630206718, 16886853467990947561, 7271743613486559236, 5739255674756985634, 15231183103405209038, 7012245993898874716, 11029719459466047723, 17245763735067950624, 2587238481449857061, 16000814072525479957, 11592188341790308788],
   [13728007503265681426, 13470636453221916779, 13448473906337917809, 7856232450982188890, 11619467570571588720, 14292890047371266780, 16434704547707413156, 6130222131311528713, 3327711641965228806, 2899842260929146403, 10104225391273729249, 8878477119929277136, 12916453554444413420, 8577680192111428950, 5009867215310976599, 14877463070659391646, 6018941769003415970, 12103336556918833420, 14092274212998380589, 5482291421443586367, 15827545718298521622, 17066278771332882276, 12806177253777523086, 252708582032893019],
   [5055116441585539268, 12271953794898940730, 15800752318096216803, 7119504500926755562, 10997514316219264303, 13643701274123122122, 4772277745291625778, 16870896072142030717, 14086489375559027020, 4417825685770084805, 7855254930801675549, 2752359232678852358, 9538710722760750576, 5188241177323267709, 14432105606973920994, 6877281938120512625, 4318053369177095901, 2827872692960392683, 272360556905808603, 15147893079130788230, 17639905405143370788, 6985641469418021439, 16409151183887682762, 2629622552101209320],
   [12916249413966687901, 6650947398386432110, 9679510237971573966, 15828741411112402034, 4233795237798188762, 8716326201305508022, 12714609984086141948, 8421361987896815106, 4902666201304047616, 13088711042815059351, 11866599386161627525, 11425262905873768732, 940847576909940401, 596886604823144171, 9399393629159551883, 2023988449976633786, 9325136164615966581, 1370879147067350352, 16746542000416293381, 14228490816684126426, 12866874801961924663, 9139934128553481047, 11088490085069995287, 10541690176029515355],
   [5141653770986671347, 3373946973216670977, 14782555018144245787, 6526503036885061305, 8012974368258377102, 1401137591032427671, 16620719765812043614, 16332320343249957533, 18441581001881794088, 3490944552746092392, 6334682510341100413, 11602100508060535101, 1436922348749134028, 6118469047309712769, 2104667625470483556, 1065092911851661809, 6118560279360364493, 16364961586126506944, 15190994998361462997, 17145161163829298996, 14209198274638583128, 17936140235398332532, 7063314294526942823, 16000604952259466472],
   [4731212598587336710, 8390610133831844158, 18307921483147578228, 15350606593878528312, 3536165997306704091, 9368908242328341706, 17691958418195732662, 7423735962427697952, 14284662129991196738, 8847091463088736774, 3345006887836830975, 16699572779896869539, 16896255734003067213, 16878614119717942440, 10203686572205001517, 7020159266736795380, 7166250435581051025, 688384165671114479, 17886919956260583709, 9583462434957069750, 14975504452415134748, 16242344843069199162, 2107112117712659060, 2465575953115035763],
   [6791125438556493214, 6327434145745174840, 5470254938802078284, 906208192725570258, 14857513352743805919, 15700104290251400961, 11691107795053751543, 7112487195755478504, 15437989326661648939, 5289159932614257174, 17977587421254133578, 13984712792283408746, 1553822040238733831, 18212464549679897149, 3878022564989114889, 14022315354894688608, 11191559934175031897, 12660092817090322465, 18346004535683181856, 11425451311189515375, 3260548677948579287, 6126924072113763777, 15439716855378369085, 10637870759158394854],
   [8112811441420705361, 9916929189242685702, 1715570500654546227, 8179467201454794803, 17641855967127099095, 16784231792327093663, 12156983545234594020, 16012181790781278192, 7541868339501505184, 1056862619506430133, 12896474245405454827, 14772384465256196574, 17870631144099806224, 9071086297396855981, 18033092609919654671, 2302102114726646429, 4054350627843033696, 6339410170159308966, 12055431882988695732, 13711882746699360250, 6147800621544009, 16655741172038268946, 5625079370897641167, 15204897773870801967],
   [13159846541386554349, 15763911474447498156, 2458419887894543616, 5360169286280983716, 3649846746089492222, 14632600683767001156, 8466290887920432782, 732157009829295992, 889329125479548988, 11719624955780520242, 15236575395318589857, 5251086529783348781, 2415922191685843575, 15575397302658855897, 10162349017530818547, 3701412744883943374, 13037260982118631785, 15926059081421795100, 7481981400892211901, 18389316666950592258, 14870878103535004467, 15344252687181196542, 12668403975252959244, 6660462504697045193],
   [6692089340156009690, 3363503255272677575, 10588292149039926097, 10938758790508217431, 2428995463189864467, 6752704410663308256, 15799334242496220028, 9473202515796623985, 18280783215934330767, 14588909243196855740, 1738847389682241263, 17004210853835205331, 13156594347216740583, 18063793703598094435, 2966741022611989506, 15456135543024974216, 7624406586290403499, 15473582071843781717, 17613929293306154759, 13917431749901365861, 18404589349028634635, 14355361632849337290, 9318964181931088070, 2988385205317385339],
   [7589026013280600095, 14952551685667355466, 5696494779476679879, 18092386608826076832, 11194390108668007987, 18039111160977411622, 16766297389016706845, 13085376404779015154, 15696104973562707527, 3884222113361157150, 7736985022988318639, 11593921285576941364, 7848505801132863186, 3972572996289349533, 14924107765818242138, 378033554625446880, 17547048186176883894, 16122629122062385312, 10676125518224057278, 11818257825913575366, 14529952606139719550, 11692049715902489639, 7836742927088044986, 6816975138963559175],
   [626816919938755681, 13763828636473062823, 13143270443132720604, 7796759293170015932, 617091659648776250, 17578397916672115187, 2902891336524527977, 17806658701893505045, 11230166717736116886, 18160719061977576512, 15542067926047679763, 8467852715712340, 10604815203854262387, 6886711231806319021, 6528694601223423962, 3507850853696617947, 12290279874379771060, 4481132218495973166, 11320855769014212407, 2874719246637887712, 10167442969556220863, 16657348438200303301, 2597565106060406298, 9478319747238949976],
   [5920408981945424516, 11439336798594843965, 15002038245384254546, 4219256350012266791, 18369399387584910890, 2691044547766009930, 7147575504646139644, 426266935637559109, 11582444888205622817, 17359412147015014763, 9845685176826768955, 8895244795931579190, 13691050029079720821, 10857928053155399780, 10034169391862391986, 12341915832080311108, 5927816051741983352, 11974559620877481026, 6565998293115064437, 12591165770278767601, 7407618071217707600, 9571016752445766412, 16750916532386411886, 8187843467882534732],
   [13487871592317893785, 4284702623715988306, 1226265276057749226, 1416240676928543819, 4034434487265083208, 6942969707159221643, 7314340730660606202, 16126617997091053750, 2256200142033448767, 16934085591665834909, 287499176616977396, 17144513231713105223, 2814008992954650915, 5047208373963379652, 2429945283905377609, 18438726221726188607, 62961949903887719, 6880003401328330809, 4789081179483274248, 15426765863958082665, 5154019006981709798, 7745684815987692178, 16274169513684721324, 1131224242653338956],
   [13719121051453905355, 3201969929065299991, 82242033686591205, 3950550778031453915, 3344132637460794569, 11904136893918645426, 16702036558551814967, 9426170062664457182, 5627109556660767825, 17982312744199834749, 10865912748375366462, 5215060765134501628, 16339276628437145552, 15785883797886580024, 7665180836583038604, 16152234810945062016, 16326961847382713508, 1493995732874112125, 14381959243346545859, 3183894479154531170, 13158896480817526279, 31472384293588219, 1596305273605530710, 4853054256467931275],
   [3248032707577127213, 13725376485348431000, 11795592363124718541, 5336861983720267031, 13313809135959889557, 13968588773819395245, 14981917433067609221, 13526217456107088293, 17858280386760310607, 6200083701096238358, 6574020548524524237, 8672475576397867052, 15151736484778852516, 11618664925680073556, 15361631899143854751, 10898892890684440717, 7092634775922849958, 12869237452871915038, 2086974064392269384, 7936963413386322829, 6799248637909722804, 1791418230574823754, 1495591012491204257, 18303367240560150132],
   [10592713467961189773, 6198478355943877685, 16632317874158630600, 2236284071376083280, 10462816198028961279, 17217694161994925895, 6163269596856181508, 12696239356725399693, 7711859630359386182, 2387729248813185649, 4732163292711716001, 4325783975278400789, 13020931879911391448, 15111014727671934121, 11937406004391906471, 12215695508985163229, 6683062030337551862, 12799361828439310614, 14364528426580395246, 414626720296913685, 8709596695114910767, 3814063662812344508, 13976487947043704186, 14594846524249103702]]

end Verif.Poseidon

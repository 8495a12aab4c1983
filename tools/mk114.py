import json
r={"mods":["Verif.NN.TestTrain","Verif.NN.PropsTestTrain"],"props":[["C114","Watching the training does not disturb it",
"The training loop of the experiment program prints the cost and the accuracy whenever the clock says so. Whatever the clock does, the weights, the settings and the trainer after the loop are those of the same number of plain training calls; each printed cost is that of the network before its iteration and each printed accuracy is the share of samples the network after it classifies correctly; and every trial follows the same learning-rate schedule.",
"all networks, samples, trainers, numbers of iterations, trials and clocks",
"all clocks and histories: no test run can make the clock behave in every way.",
["test/model_test.cpp: train, accuracy, main","src/trainer/trainer.cpp: feeddata"]]],
"notes":{"C114":["partial","C114_clock: independent of the clock, and what is printed. C114_trial: the rates after a trial, for every number of earlier iterations. Missing because false: the same schedule in every trial. The trainer goes on counting, so that a decay that took place in the first trial takes place in no later one: C114_trials_refuted. The reset of the network between trials is C44/C34; the drawing is not modelled."]},
"design":"(C114) the watched and the plain run are related iteration by iteration (same trainer, settings, weights, cost) by an invariant of the loop; composed with C57, C32, C104, C39."}
json.dump(r,open('/tmp/gen/r114.json','w'))
